[]
