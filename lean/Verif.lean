import Verif.Res
import Verif.ListModel
import Verif.ListLemmas
import Verif.Props.Lists
import Verif.Props.RemSorted
import Verif.HashModel
import Verif.HashLemmas
import Verif.Props.Hash
import Verif.SortModel
import Verif.Props.Sort
import Verif.CompareModel
import Verif.Props.Compare
import Verif.BitField
import Verif.EntityModel
import Verif.Props.Entity
import Verif.AttribModel
import Verif.Props.Attrib
import Verif.MSetModel
import Verif.Props.MSet
import Verif.MiscModel
import Verif.Props.Misc
import Verif.MeshModel
import Verif.MeshLemmas
import Verif.Props.MeshIDs
import Verif.TemplateModel
import Verif.Props.Templates
import Verif.ParFlagsModel
import Verif.Props.ParFlags
import Verif.ColumnModel
import Verif.Props.Column
import Verif.TopoModel
import Verif.TopoBits
import Verif.TopoQuery
import Verif.TopoSpec
import Verif.TopoLemmas
import Verif.TopoFaceOps
import Verif.TopoEdgeOps
import Verif.TopoFaceKeep
import Verif.TopoSetVerts
import Verif.TopoRegionOps
import Verif.TopoRegionEdit
import Verif.TopoReplace
import Verif.TopoStep
import Verif.TopoCheck
import Verif.TopoAnswers
import Verif.Props.Adjacency
import Verif.Props.Queries
import Verif.TopoLoop
import Verif.Props.FaceLoops
import Verif.Props.SetVertices
import Verif.TopoWalk
import Verif.Props.FaceEdits
import Verif.Props.RegionEdits
import Verif.Props.DeleteRestore
import Verif.Props.Common
import Verif.SplitModel
import Verif.SplitLemmas
import Verif.Props.Split
import Verif.Props.Merge
import Verif.ParAdjModel
import Verif.Props.ParAdj
import Verif.ExchangeModel
import Verif.Props.Exchange
import Verif.UpdateModel
import Verif.Props.Update
import Verif.GlobalIDModel
import Verif.Numbering
import Verif.Props.GlobalIDs
import Verif.AssignModel
import Verif.Props.AssignIDs
import Verif.GenModel
import Verif.Props.Structured
import Verif.RegionModel
import Verif.TopoCycle
import Verif.TopoSeen
import Verif.RegionLemmas
import Verif.RegionPoly
import Verif.Props.RegionVertices
import Verif.Props.Effects
import Verif.Props.ColumnAny
import Verif.BuildModel
import Verif.BuildLemmas
import Verif.Props.StructuredMesh
import Verif.Props.StructuredPlane
import Verif.ModModel
import Verif.ModLemmas
import Verif.Props.SplitFace
import Verif.ModLemmas2
import Verif.Props.SplitPoint
import Verif.Props.JoinRegions
import Verif.Props.MergeFaces
import Verif.Props.MergeEdges
import Verif.Props.SwapEdge
import Verif.Props.JoinFaces
import Verif.RegionQueryModel
import Verif.RegionQueryLemmas
import Verif.Props.RegionContents
import Verif.Props.JoinFacesIn
import Verif.Props.RegionEdges
import Verif.FileModel
import Verif.FileLemmas
import Verif.FileBuild
import Verif.Props.FileRoundTrip
import Verif.CopyModel
import Verif.CopyBuild
import Verif.Props.MeshCopy
import Verif.SendModel
import Verif.SendBuild
import Verif.SendRecv
import Verif.Props.SendMesh
import Verif.GraphModel
import Verif.Props.ElementGraph
import Verif.CheckModel
import Verif.Props.CheckTopo
import Verif.NumberModel
import Verif.Props.Number
import Verif.CollapseModel
import Verif.Props.Collapse
import Verif.GhostModel
import Verif.Props.Ghost
import Verif.LabelModel
import Verif.Props.LabelLayer
import Verif.DelInteriorModel
import Verif.Props.DelInterior
import Verif.RefineModel
import Verif.RefineLemmas
import Verif.Props.Tri2Quad
import Verif.RegionNew
import Verif.AddRegions
import Verif.Props.Tet2Hex
import Verif.ClassfnModel
import Verif.Props.Classfn
import Verif.GenDescModel
import Verif.AddPolys
import Verif.Props.GenDesc
import Verif.AddMore
import Verif.Later
import Verif.TetLemmas
import Verif.SimplexModel
import Verif.SimplexLemmas
import Verif.Props.Simplex
import Verif.SimplexFaceModel
import Verif.SimplexFaceLemmas
import Verif.SimplexFaceParted
import Verif.Props.SimplexFace
import Verif.PartModel
import Verif.PartSpec
import Verif.PartLemmas
import Verif.PartRun
import Verif.PartOwn
import Verif.Props.Partition
import Verif.PBoundModel
import Verif.RangeMesh
import Verif.Props.PBound
import Verif.AddGhostModel
import Verif.AddGhostIn
import Verif.AddGhostOut
import Verif.Props.AddGhost
import Verif.SubMeshModel
import Verif.SubMeshLemmas
import Verif.Props.SubMesh
import Verif.ConcatModel
import Verif.ConcatSpec
import Verif.ConcatLemmas
import Verif.ConcatRun
import Verif.Props.Concat
import Verif.ConcatRegModel
import Verif.ConcatRegRun
import Verif.Props.ConcatReg
import Verif.ProcModel
import Verif.ProcRun
import Verif.ProcPhase
import Verif.GatherModel
import Verif.Props.Gather
import Verif.XchngModel
import Verif.Props.Xchng
import Verif.CoordModel
import Verif.Props.Coord
import Verif.CopyAttModel
import Verif.Props.CopyAtt
import Verif.SplitRegModel
import Verif.Props.SplitRegion
import Verif.ConnModel
import Verif.Props.Conn
import Verif.F4Model
import Verif.Props.F4
import Verif.SurfModel
import Verif.Props.Surf
import Verif.MetisModel
import Verif.Props.Metis
import Verif.R1Model
import Verif.Props.R1
import Verif.ParCheckModel
import Verif.ParCheckLemmas
import Verif.Props.ParCheck
import Verif.R1EntModel
import Verif.Props.R1Ent
import Verif.R4Model
import Verif.Props.R4
import Verif.GeomModel
import Verif.Props.Angle
import Verif.Props.CondNum
import Verif.FormatModel
import Verif.Props.Format
import Verif.R1MergeModel
import Verif.Props.R1Merge
import Verif.Props.R4Edges
import Verif.R4MergeModel
import Verif.Props.R4Merge
import Verif.R4EdgeModel
import Verif.Props.R4RegEdges
import Verif.UpdateAllModel
import Verif.Props.UpdateAll
import Verif.R1MergeFaceModel
import Verif.Props.R1MergeFaces
