import Verif.Adv.Lemmas
import Verif.Adv.Model
import Verif.Adv.Props
import Verif.Adv.Spec
import Verif.Basic
import Verif.Bdry.Lemmas
import Verif.Bdry.Model
import Verif.Bdry.PropsBind
import Verif.Bdry.PropsEval
import Verif.Bdry.PropsMean
import Verif.Bdry.Sample
import Verif.Bdry.Spec
import Verif.CG.Lemmas
import Verif.CG.Model
import Verif.CG.Props
import Verif.Caching.Lemmas
import Verif.Caching.Model
import Verif.Caching.Props
import Verif.Caching.PropsTwo
import Verif.Caching.Sample
import Verif.Check.Model
import Verif.Check.Props
import Verif.Check.Sample
import Verif.Check.Spec
import Verif.Compose.Lemmas
import Verif.Compose.LemmasRun
import Verif.Compose.Model
import Verif.Compose.Props
import Verif.Compose.PropsNear
import Verif.Compose.PropsRaster
import Verif.Compose.Sample
import Verif.Compose.Spec
import Verif.Cross.Chord
import Verif.Cross.Hits
import Verif.Cross.Model
import Verif.Cross.Props
import Verif.Cross.Sample
import Verif.Cross.Scan
import Verif.Cross.Spec
import Verif.Cross.Tile
import Verif.Csv.Lemmas
import Verif.Csv.LemmasPoly
import Verif.Csv.Model
import Verif.Csv.ModelMerge
import Verif.Csv.Props
import Verif.Csv.PropsMerge
import Verif.Csv.PropsPoly
import Verif.Csv.Sample
import Verif.Csv.SampleMerge
import Verif.Csv.Spec
import Verif.Culvert.Lemmas
import Verif.Culvert.LemmasPipe
import Verif.Culvert.Model
import Verif.Culvert.Props
import Verif.Culvert.PropsRun
import Verif.Culvert.Spec
import Verif.Cut.Model
import Verif.Cut.Props
import Verif.Cut.Sample
import Verif.Cut.Spec
import Verif.Damage.Lemmas
import Verif.Damage.LemmasChance
import Verif.Damage.LemmasCollapse
import Verif.Damage.Model
import Verif.Damage.Props
import Verif.Damage.PropsAssess
import Verif.Damage.PropsCurve
import Verif.Damage.Sample
import Verif.Damage.Spec
import Verif.Dem.Lemmas
import Verif.Dem.LemmasRun
import Verif.Dem.Model
import Verif.Dem.Props
import Verif.Dem.Sample
import Verif.Dem.Spec
import Verif.Erode.Lemmas
import Verif.Erode.Model
import Verif.Erode.ModelFric
import Verif.Erode.Props
import Verif.Erode.PropsDune
import Verif.Erode.PropsFric
import Verif.Erode.PropsPlain
import Verif.Erode.Sample
import Verif.Erode.Spec
import Verif.Evolve.Lemmas
import Verif.Evolve.Model
import Verif.Evolve.Props
import Verif.Evolve.Spec
import Verif.Extrap.Lemmas
import Verif.Extrap.Model
import Verif.Extrap.Props
import Verif.Extrap.PropsLake
import Verif.Extrap.PropsMp
import Verif.Extrap.PropsTwo
import Verif.Extrap.Sample
import Verif.Extrap.Spec
import Verif.Extrap.Step
import Verif.Factory.Diagonal
import Verif.Factory.Geometry
import Verif.Factory.Lemmas
import Verif.Factory.Model
import Verif.Factory.Props
import Verif.Factory.Spec
import Verif.FileFn.Lemmas
import Verif.FileFn.Model
import Verif.FileFn.Props
import Verif.FileFn.PropsDomain
import Verif.FileFn.Sample
import Verif.FileFn.Spec
import Verif.Fit.Lemmas
import Verif.Fit.Model
import Verif.Fit.Props
import Verif.Fit.PropsTwice
import Verif.Fit.Spec
import Verif.Flux.Algebra
import Verif.Flux.Lemmas
import Verif.Flux.Model
import Verif.Flux.Props
import Verif.Flux.PropsTwo
import Verif.Flux.PropsWall
import Verif.Flux.Sample
import Verif.Flux.Spec
import Verif.Flux.Swap
import Verif.Forcing.Lemmas
import Verif.Forcing.Model
import Verif.Forcing.ModelWind
import Verif.Forcing.Props
import Verif.Forcing.PropsWind
import Verif.Forcing.Sample
import Verif.Forcing.Spec
import Verif.Forcing.SpecWind
import Verif.Friction.Model
import Verif.Friction.Props
import Verif.Friction.Spec
import Verif.Gate.LemmasCurve
import Verif.Gate.Model
import Verif.Gate.Props
import Verif.Gate.PropsFlow
import Verif.Gate.PropsOp
import Verif.Gate.PropsTable
import Verif.Gate.Spec
import Verif.Gauge.Bearing
import Verif.Gauge.Lemmas
import Verif.Gauge.Model
import Verif.Gauge.Props
import Verif.Gauge.PropsBearing
import Verif.Gauge.PropsThree
import Verif.Gauge.Sample
import Verif.Gauge.Spec
import Verif.Gen.Lemmas
import Verif.Gen.LemmasRun
import Verif.Gen.LemmasTags
import Verif.Gen.Model
import Verif.Gen.ModelTags
import Verif.Gen.Props
import Verif.Gen.PropsTags
import Verif.Gen.Sample
import Verif.Gen.SampleTags
import Verif.Gen.Spec
import Verif.Gen.SpecTags
import Verif.GeoRef.Model
import Verif.GeoRef.Props
import Verif.GeoRef.PropsData
import Verif.GeoRef.Spec
import Verif.Geom.Model
import Verif.Geom.Props
import Verif.Geom.Spec
import Verif.Interp.Lemmas
import Verif.Interp.Model
import Verif.Interp.Props
import Verif.Interp.PropsTime
import Verif.Interp.Spec
import Verif.Kv.Lemmas
import Verif.Kv.Model
import Verif.Kv.Props
import Verif.Kv.PropsElliptic
import Verif.Kv.Sample
import Verif.Kv.Spec
import Verif.Lib.Model
import Verif.Lib.PropsMax
import Verif.Lib.PropsOrder
import Verif.Lib.Sample
import Verif.Lib.Spec
import Verif.Llasc.Model
import Verif.Llasc.Props
import Verif.Llasc.Sample
import Verif.Llasc.Spec
import Verif.Loop.Lemmas
import Verif.Loop.Model
import Verif.Loop.Props
import Verif.Loop.PropsAngle
import Verif.Loop.Sample
import Verif.Loop.Spec
import Verif.MaxOps.Model
import Verif.MaxOps.Props
import Verif.MaxOps.PropsStage
import Verif.MaxOps.Sample
import Verif.MaxOps.Spec
import Verif.Mesh.Lemmas
import Verif.Mesh.Model
import Verif.Mesh.Props
import Verif.Mesh.Spec
import Verif.MeshFile.Lemmas
import Verif.MeshFile.LemmasFile
import Verif.MeshFile.Model
import Verif.MeshFile.ModelMsh
import Verif.MeshFile.Props
import Verif.MeshFile.PropsMesh
import Verif.MeshFile.PropsMsh
import Verif.MeshFile.Sample
import Verif.MeshFile.SampleMsh
import Verif.MeshFile.Spec
import Verif.MeshFile.SpecMsh
import Verif.Mux.Lemmas
import Verif.Mux.LemmasRead
import Verif.Mux.Model
import Verif.Mux.ModelSts
import Verif.Mux.Props
import Verif.Mux.PropsChecks
import Verif.Mux.PropsSts
import Verif.Mux.PropsTimes
import Verif.Mux.Sample
import Verif.Mux.Spec
import Verif.NodeAvg.Lemmas
import Verif.NodeAvg.Model
import Verif.NodeAvg.Props
import Verif.NodeAvg.Spec
import Verif.Ops.Model
import Verif.Ops.PropsInlet
import Verif.Ops.PropsRate
import Verif.Ops.PropsRun
import Verif.Ops.PropsStruct
import Verif.Ops.Spec
import Verif.Par.Lemmas
import Verif.Par.LemmasComm
import Verif.Par.LemmasDiv
import Verif.Par.LemmasGhost
import Verif.Par.LemmasLocal
import Verif.Par.LemmasPart
import Verif.Par.Model
import Verif.Par.Props
import Verif.Par.Sample
import Verif.Par.Spec
import Verif.ParFile.Lemmas
import Verif.ParFile.LemmasTwo
import Verif.ParFile.Model
import Verif.ParFile.Props
import Verif.ParFile.PropsLocal
import Verif.ParFile.PropsRun
import Verif.ParFile.Sample
import Verif.ParFile.SampleRun
import Verif.ParFile.Spec
import Verif.ParGhost.Lemmas
import Verif.ParGhost.LemmasCount
import Verif.ParGhost.LemmasRace
import Verif.ParGhost.Mesh
import Verif.ParGhost.Model
import Verif.ParGhost.Order
import Verif.ParGhost.Props
import Verif.ParGhost.PropsMesh
import Verif.ParGhost.PropsRace
import Verif.ParGhost.Sample
import Verif.ParGhost.SampleMesh
import Verif.ParGhost.Spec
import Verif.ParInlet.Lemmas
import Verif.ParInlet.Model
import Verif.ParInlet.Props
import Verif.ParInlet.PropsAlloc
import Verif.ParInlet.PropsRegion
import Verif.ParInlet.PropsStep
import Verif.ParInlet.Sample
import Verif.ParInlet.Spec
import Verif.ParRun.Lemmas
import Verif.ParRun.LemmasFlux
import Verif.ParRun.LemmasRun
import Verif.ParRun.LemmasStep
import Verif.ParRun.Model
import Verif.ParRun.Props
import Verif.ParRun.Sample
import Verif.ParStruct.Lemmas
import Verif.ParStruct.LemmasCall
import Verif.ParStruct.Model
import Verif.ParStruct.Net
import Verif.ParStruct.Patterns
import Verif.ParStruct.Phase
import Verif.ParStruct.Props
import Verif.ParStruct.Sample
import Verif.ParStruct.Spec
import Verif.PlotU.Lemmas
import Verif.PlotU.Model
import Verif.PlotU.Props
import Verif.PlotU.PropsCent
import Verif.PlotU.PropsMax
import Verif.PlotU.PropsTwo
import Verif.PlotU.Sample
import Verif.PlotU.Spec
import Verif.PolyFun.Model
import Verif.PolyFun.Props
import Verif.PolyFun.PropsGeo
import Verif.Polygon.Lemmas
import Verif.Polygon.Model
import Verif.Polygon.Props
import Verif.Polygon.PropsArea
import Verif.Polygon.PropsInter
import Verif.Polygon.PropsTri
import Verif.Polygon.PropsTwo
import Verif.Polygon.Spec
import Verif.Proj.Lemmas
import Verif.Proj.LemmasConf
import Verif.Proj.Model
import Verif.Proj.Props
import Verif.Proj.PropsConf
import Verif.Proj.PropsDms
import Verif.Proj.PropsOrigin
import Verif.Proj.Sample
import Verif.Proj.Spec
import Verif.Quad.Model
import Verif.Quad.PropsCell
import Verif.Quad.PropsTree
import Verif.Quantity.Lemmas
import Verif.Quantity.Model
import Verif.Quantity.Props
import Verif.Quantity.Spec
import Verif.Radar.Model
import Verif.Radar.Props
import Verif.Radar.PropsStats
import Verif.Radar.Spec
import Verif.Raster.Files
import Verif.Raster.Lemmas
import Verif.Raster.Model
import Verif.Raster.Props
import Verif.Raster.PropsFiles
import Verif.Raster.Spec
import Verif.Region.Lemmas
import Verif.Region.Model
import Verif.Region.Props
import Verif.Region.PropsLine
import Verif.Region.Spec
import Verif.Sdf.Model
import Verif.Sdf.Props
import Verif.Sdf.Spec
import Verif.SetQ.Model
import Verif.SetQ.Props
import Verif.SetQ.PropsMax
import Verif.Sparse.Lemmas
import Verif.Sparse.Model
import Verif.Sparse.Props
import Verif.Sparse.PropsCsr
import Verif.Sparse.PropsDok
import Verif.Sparse.Spec
import Verif.Sts.Lemmas
import Verif.Sts.Model
import Verif.Sts.Props
import Verif.Sts.Sample
import Verif.Sts.Spec
import Verif.Sww.Lemmas
import Verif.Sww.LemmasMerge
import Verif.Sww.LemmasRead
import Verif.Sww.Model
import Verif.Sww.ModelMerge
import Verif.Sww.ModelRead
import Verif.Sww.Props
import Verif.Sww.PropsMerge
import Verif.Sww.PropsRead
import Verif.Sww.Sample
import Verif.Sww.SampleMerge
import Verif.Sww.SampleRead
import Verif.Sww.Spec
import Verif.Sww.SpecMerge
import Verif.Sww.SpecRead
import Verif.TagRegion.Model
import Verif.TagRegion.Props
import Verif.TagRegion.Sample
import Verif.TagRegion.Spec
import Verif.TimeFile.Model
import Verif.TimeFile.Props
import Verif.TimeFile.Sample
import Verif.Tools.Angle
import Verif.Tools.Model
import Verif.Tools.Props
import Verif.Tools.PropsAngle
import Verif.Tools.PropsStat
import Verif.Tools.Spec
import Verif.Ungen.Model
import Verif.Ungen.Props
import Verif.Ungen.Sample
import Verif.Ungen.Spec
import Verif.Urs.Model
import Verif.Urs.Props
import Verif.Urs.Sample
import Verif.Urs.Spec
import Verif.Wall.Ends
import Verif.Wall.Lemmas
import Verif.Wall.Model
import Verif.Wall.Props
import Verif.Wall.PropsMore
import Verif.Wall.Sample
import Verif.Wall.Spec
