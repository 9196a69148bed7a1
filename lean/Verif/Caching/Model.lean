import Verif.Basic

/-!
# Model of supervised caching of function results

Source: `/repo/anuga/caching/caching.py` 145-418 (`cache`), 814-996 (`CacheLookup`), 1000-1061 (`clear_cache`), 1096-1196 (`save_args_to_cache`,
`save_results_to_cache`), 1200-1340 (`load_from_cache`, `myload`), 1414-1495 (`myhash`), 1499-1582 (`compare`), 1646-1733 (`get_bytecode`,
`get_depstats`).

Simplifications: values are trees (no object occurs twice within one value), built from simple values, tuples, lists, dictionaries and arrays with one
index; classes and callable objects as arguments are left out. All calls use one setting of compression and of the option `bytecode` (True). Names of
files are triples (name of the function, hash, number of `x` appended). Wildcards in dependencies are left out. Output, statistics and the time of
the computation are left out.
-/

namespace Verif.Caching

/-! ## Values -/

mutual

/-- Python values. -/
inductive Val (A K : Type) where
  | atom (a : A)
  | tuple (l : Vals A K)
  | list (l : Vals A K)
  /-- A dictionary as the list of its items, `tuple [key, value]`. -/
  | dict (l : Vals A K)
  | array (d : List K)

/-- Lists of values. -/
inductive Vals (A K : Type) where
  | nil
  | cons (v : Val A K) (l : Vals A K)

end

variable {A K : Type} [DecidableEq A] [Field K] [DecidableEq K]

/-- `len`. -/
def Vals.length : Vals A K → ℕ
  | .nil => 0
  | .cons _ l => l.length + 1

/-- `num.all(A==B)` for arrays with one index: an array with one element is compared with every element of the other. Arrays that cannot be
compared count as different. -/
def sameArray (a b : List K) : Bool :=
  if a.length = b.length then decide (a = b)
  else match a, b with
    | [x], l => l.all (x = ·)
    | l, [y] => l.all (· = y)
    | _, _ => false

mutual

/-- `compare`, `caching.py` 1499-1582. Two dictionaries of the same length are compared by a call of `compare` on the same two objects, which finds
them in the table `ids` and returns True (1539-1549 and 1512-1520). -/
def compare : Val A K → Val A K → Bool
  | .atom a, .atom b => decide (a = b)
  | .tuple a, .tuple b => compareAll a b
  | .list a, .list b => compareAll a b
  | .dict a, .dict b => a.length == b.length
  | .array a, .array b => sameArray a b
  | _, _ => false

/-- Same length and the same elements. -/
def compareAll : Vals A K → Vals A K → Bool
  | .nil, .nil => true
  | .cons a l, .cons b m => compare a b && compareAll l m
  | _, _ => false

end

/-- The functions used for hashing: of simple values, of the mean of an array and of a sequence of hashes. -/
structure Hasher (A K H : Type) where
  atom : A → H
  mean : K → H
  seq : List H → H

variable {H : Type} [DecidableEq H]

mutual

/-- `myhash`, `caching.py` 1414-1495: tuples, lists and dictionaries (as lists of pairs) alike; arrays by their mean. -/
def myhash (h : Hasher A K H) : Val A K → H
  | .atom a => h.atom a
  | .tuple l => h.seq (myhashes h l)
  | .list l => h.seq (myhashes h l)
  | .dict l => h.seq (myhashes h l)
  | .array d => h.mean (d.sum / d.length)

/-- The hashes of the elements. -/
def myhashes (h : Hasher A K H) : Vals A K → List H
  | .nil => []
  | .cons v l => myhash h v :: myhashes h l

end

/-- `tuple([a, b])`. -/
def pair (a b : Val A K) : Val A K := .tuple (.cons a (.cons b .nil))

/-! ## Files -/

/-- A file of the cache: absent, unreadable or with a content. -/
inductive File (X : Type) where
  | absent
  | bad
  | good (x : X)

/-- Positional and keyword arguments. -/
structure Args (A K : Type) where
  args : Val A K
  kwargs : Val A K

variable {C R W : Type} [DecidableEq C]

/-- The three files under one name; the administration holds the statistics of the dependencies and the details of the code. -/
structure Slot (A K C R : Type) where
  result : File R := .absent
  args : File (Args A K) := .absent
  admin : File (Val A K × C) := .absent

/-- The name of a cache file without the `x`s appended. -/
structure Key (H : Type) where
  name : String
  hash : H
  deriving DecidableEq

/-- The cache directory: for each name the slots without, with one, with two … `x`; those beyond the end of the list are empty. -/
abbrev Store (A K H C R : Type) := Key H → List (Slot A K C R)

/-- A function: its name, the details of its code that are compared (1682-1691), and what it does; `none` is an exception. `W` is the state of the
files it may read. -/
structure Fn (A K C R W : Type) where
  name : String
  code : C
  run : W → Args A K → Option R

/-- What is known of a file: size and time of modification, `get_depstats`, `caching.py` 1695-1733; the dictionary from names to pairs. `stat` gives
a pair of simple values. -/
def depstats (stat : String → A × A) (path : String → A) : List String → Vals A K
  | [] => .nil
  | p :: ps => .cons (.tuple (.cons (.atom (path p)) (.cons (.tuple (.cons (.atom (stat p).1) (.cons (.atom (stat p).2) .nil))) .nil)))
      (depstats stat path ps)

/-- `CacheLookup`, `caching.py` 814-996: the number of `x` of the name to be used and the result if there is one. `given` is whether dependencies
were given. -/
def lookup (code : C) (a : Args A K) (given : Bool) (deps : Val A K) : ℕ → List (Slot A K C R) → ℕ × Option R
  | k, [] => (k, none)
  | k, s :: rest =>
    match s.result, s.args, s.admin with
    | .absent, _, _ => (k, none)
    | _, .absent, _ => (k, none)
    | _, _, .absent => (k, none)
    | _, .bad, _ => (k, none)
    | _, _, .bad => (k, none)
    | r, .good b, .good (depsref, coderef) =>
      if given && !compare depsref deps then (k, none)
      else if compare b.args a.args && compare b.kwargs a.kwargs && decide (code = coderef) then
        match r with
        | .good t => (k, some t)
        | _ => (k, none)
      else lookup code a given deps (k + 1) rest

/-- Change slot number `k`. -/
def modify (f : Slot A K C R → Slot A K C R) : ℕ → List (Slot A K C R) → List (Slot A K C R)
  | 0, [] => [f {}]
  | 0, s :: l => f s :: l
  | k + 1, [] => {} :: modify f k []
  | k + 1, s :: l => s :: modify f k l

/-- Change the slots of one name. -/
def Store.at' (st : Store A K H C R) (key : Key H) (g : List (Slot A K C R) → List (Slot A K C R)) : Store A K H C R :=
  fun key' => if key' = key then g (st key') else st key'

/-- The outcome of a call: a value, `None` (for `test`) or the exception of the function. -/
inductive Outcome (R : Type) where
  | value (t : R)
  | nothing
  | raised

/-- Options of a call. -/
structure Opts where
  evaluate : Bool := false
  test : Bool := false

/-- The name under which a call is stored, `caching.py` 327-339. -/
def keyOf (h : Hasher A K H) (f : Fn A K C R W) (a : Args A K) : Key H := ⟨f.name, myhash h (pair a.args a.kwargs)⟩

/-- `cache(my_F, args, kwargs, dependencies, evaluate, test)`, `caching.py` 369-418; `deps` are the statistics of the dependencies. -/
def cache (h : Hasher A K H) (st : Store A K H C R) (w : W) (f : Fn A K C R W) (a : Args A K) (given : Bool) (deps : Val A K) (o : Opts) :
    Store A K H C R × Outcome R :=
  let key := keyOf h f a
  let (k, t) := if o.evaluate then (0, none) else lookup f.code a given deps 0 (st key)
  match t with
  | some t => (st, .value t)
  | none =>
    if o.test then (st, .nothing)
    else
      let st1 := st.at' key (modify (fun s => { s with args := .good a }) k)
      match f.run w a with
      | none => (st1, .raised)
      | some t => (st1.at' key (modify (fun s => { s with result := .good t, admin := .good (deps, f.code) }) k), .value t)

/-- `cache(..., clear=True)`, `caching.py` 349-363: only the name without `x`. -/
def clear (st : Store A K H C R) (key : Key H) : Store A K H C R := st.at' key (modify (fun _ => {}) 0)

/-- `cache(my_F, 'clear')`, `caching.py` 1000-1047: every file whose name begins with that of the function. -/
def clearFn (st : Store A K H C R) (name : String) : Store A K H C R := fun key => if name.toList.isPrefixOf key.name.toList then [] else st key

/-- What may happen to the cache and the files. -/
inductive Op (A K H C R W : Type) where
  | call (f : Fn A K C R W) (a : Args A K) (paths : List String) (o : Opts)
  | clear (key : Key H)
  | clearFn (name : String)
  /-- The files change. -/
  | world (w : W)
  /-- Files of the cache are lost or damaged. -/
  | loseResult (key : Key H) (k : ℕ) (damaged : Bool)
  | loseArgs (key : Key H) (k : ℕ) (damaged : Bool)
  | loseAdmin (key : Key H) (k : ℕ) (damaged : Bool)

/-- A missing or damaged file. -/
def lost {X : Type} (damaged : Bool) : File X := if damaged then .bad else .absent

/-- Files, their statistics and the cache. -/
structure State (A K H C R W : Type) where
  world : W
  store : Store A K H C R

/-- One step; `stat` reads the size and time of a file of the world. -/
def step (h : Hasher A K H) (stat : W → String → A × A) (path : String → A) (s : State A K H C R W) : Op A K H C R W → State A K H C R W × Outcome R
  | .call f a paths o =>
    let (st, out) := cache h s.store s.world f a (!paths.isEmpty) (.dict (depstats (stat s.world) path paths)) o
    ({ s with store := st }, out)
  | .clear key => ({ s with store := Verif.Caching.clear s.store key }, .nothing)
  | .clearFn name => ({ s with store := Verif.Caching.clearFn s.store name }, .nothing)
  | .world w => ({ s with world := w }, .nothing)
  | .loseResult key k d => ({ s with store := s.store.at' key (modify (fun s => { s with result := lost d }) k) }, .nothing)
  | .loseArgs key k d => ({ s with store := s.store.at' key (modify (fun s => { s with args := lost d }) k) }, .nothing)
  | .loseAdmin key k d => ({ s with store := s.store.at' key (modify (fun s => { s with admin := lost d }) k) }, .nothing)

/-- Any sequence of steps. -/
def run (h : Hasher A K H) (stat : W → String → A × A) (path : String → A) : State A K H C R W → List (Op A K H C R W) → State A K H C R W
  | s, [] => s
  | s, op :: ops => run h stat path (step h stat path s op).1 ops

end Verif.Caching
