import Verif.Model.Str
import Verif.Model.Io
import Verif.Model.PdOps
import Verif.Model.SecOps
import Verif.Model.Real
import Verif.Model.RealFmt
import Verif.Model.Params
import Verif.Props.Record
import Verif.Props.PdLines
import Verif.Props.Params
import Verif.Props.GlobalLines
import Verif.Props.Reals
import Verif.Model.Directory
import Verif.Props.Directory
import Verif.Model.Dates
import Verif.Model.Reader
import Verif.Model.Globals
import Verif.Props.Dates
import Verif.Props.Globals
import Verif.Model.Header
import Verif.Model.Names
import Verif.Props.Header
import Verif.Props.Names
import Verif.Model.Path
import Verif.Model.Geom
import Verif.Spec.Path
import Verif.Spec.Geom
import Verif.Props.Path
import Verif.Props.Geom
import Verif.Model.Entity
import Verif.Model.Entities
import Verif.Spec.Entities
import Verif.Lemmas.Entity
import Verif.Lemmas.EntityBody
import Verif.Props.Entities
import Verif.Props.Comments
import Verif.Props.EntityCases
import Verif.Model.ListEntities
import Verif.Lemmas.ListBody
import Verif.Props.ListEntities
import Verif.Props.Trees
import Verif.Props.Vertices
import Verif.Model.Nurbs
import Verif.Spec.Nurbs
import Verif.Props.Nurbs
import Verif.Model.Rescale
import Verif.Spec.Rescale
import Verif.Props.Rescale
import Verif.Model.Graph
import Verif.Model.GraphOps
import Verif.Spec.Graph
import Verif.Props.GraphInv
import Verif.Props.GraphDel
import Verif.Props.GraphSet
import Verif.Props.GraphAdd
import Verif.Props.Graph
import Verif.Props.GraphBugs
import Verif.Props.GraphRefs
import Verif.Model.Flags
import Verif.Spec.Flags
import Verif.Props.Flags
import Verif.Model.Wrap
import Verif.Spec.Wrap
import Verif.Props.Wrap
import Verif.Model.Lists
import Verif.Spec.Lists
import Verif.Spec.Cull
import Verif.Spec.Export
import Verif.Props.Live
import Verif.Props.Unused
import Verif.Props.Lists
import Verif.Props.ListsThm
import Verif.Props.Owner
import Verif.Props.Cull
import Verif.Props.Export
import Verif.Model.Depth
import Verif.Spec.Depth
import Verif.Props.Depth
import Verif.Model.Tree
import Verif.Spec.Tree
import Verif.Props.TreeBuild
import Verif.Model.Composite
import Verif.Spec.Composite
import Verif.Props.Composite
import Verif.Model.Attr
import Verif.Spec.Attr
import Verif.Props.Attr
import Verif.Model.File
import Verif.Spec.File
import Verif.Spec.FileDE
import Verif.Lemmas.File
import Verif.Props.FileBody
import Verif.Props.File
import Verif.Props.FileCases
import Verif.Model.Assoc
import Verif.Spec.Link
import Verif.Lemmas.Link
import Verif.Lemmas.LinkOps
import Verif.Lemmas.LinkClass
import Verif.Lemmas.LinkFull
import Verif.Lemmas.LinkAll
import Verif.Lemmas.LinkTotal
import Verif.Props.Link
import Verif.Props.LinkHistory
import Verif.Props.LinkCases
import Verif.Spec.Accept
import Verif.Spec.Written
import Verif.Lemmas.LinkAccept
import Verif.Lemmas.LinkAccepts
import Verif.Props.LinkAccept
import Verif.Props.LinkAcceptCases
import Verif.Model.Segment
import Verif.Model.SegSplit
import Verif.Spec.Segment
import Verif.Spec.SegPoints
import Verif.Lemmas.Trig
import Verif.Lemmas.Segment
import Verif.Lemmas.SegSplit
import Verif.Props.Segment
import Verif.Props.SegSplit
import Verif.Props.SegCases
import Verif.Props.Circles
import Verif.Props.LinesMeet
import Verif.Props.ArcLine
import Verif.Props.ArcCases
import Verif.Spec.Defaults
import Verif.Props.Defaults
import Verif.Props.Ranges
import Verif.Model.Outline
import Verif.Spec.Outline
import Verif.Lemmas.Outline
import Verif.Props.Outline
import Verif.Props.OutlineCases
import Verif.Lemmas.Inside
import Verif.Props.Inside
import Verif.Props.InsideCases
import Verif.Model.Surface
import Verif.Spec.Surface
import Verif.Lemmas.Surface
import Verif.Props.Walls
import Verif.Props.Board
import Verif.Lemmas.Face
import Verif.Props.FaceCurves
import Verif.Props.FaceCases
import Verif.Model.IdfSeg
import Verif.Spec.IdfSeg
import Verif.Lemmas.IdfLoop
import Verif.Props.IdfLoop
import Verif.Props.IdfArc
import Verif.Model.IdfText
import Verif.Spec.IdfText
import Verif.Lemmas.IdfText
import Verif.Props.IdfWords
import Verif.Props.IdfNotes
import Verif.Props.IdfDrill
import Verif.Model.IdfPlace
import Verif.Spec.IdfPlace
import Verif.Lemmas.IdfPlace
import Verif.Props.IdfPlace
import Verif.Model.IdfOwner
import Verif.Spec.IdfOwner
import Verif.Props.IdfOwner
import Verif.Props.Tighten
import Verif.Model.IdfOutline
import Verif.Spec.IdfOutline
import Verif.Lemmas.IdfOutline
import Verif.Props.IdfOutline
import Verif.Model.IdfSections
import Verif.Spec.IdfSections
import Verif.Lemmas.IdfSections
import Verif.Props.IdfSections
import Verif.Model.IdfBoard
import Verif.Spec.IdfBoard
import Verif.Lemmas.IdfBoard
import Verif.Props.IdfBoard
import Verif.Model.IdfLib
import Verif.Spec.IdfLib
import Verif.Lemmas.IdfLib
import Verif.Props.IdfLib
import Verif.Spec.InsideCorner
import Verif.Lemmas.InsideCorner
import Verif.Props.InsideCorner
import Verif.Model.OutlineOp
import Verif.Spec.OutlineOp
import Verif.Lemmas.OutlineOp
import Verif.Props.OutlineOp
import Verif.Props.OutlineOpCases
import Verif.Spec.Turns
import Verif.Spec.Crossed
import Verif.Lemmas.Turns
import Verif.Lemmas.TurnsDisc
import Verif.Lemmas.TurnsCount
import Verif.Lemmas.TurnsSeg
import Verif.Lemmas.TurnsSplit
import Verif.Lemmas.Region
import Verif.Lemmas.RegionOp
import Verif.Lemmas.RegionCut
import Verif.Props.Region
import Verif.Props.RegionDone
import Verif.Props.RegionCases
import Verif.Props.RegionNumberCases
import Verif.Props.MergeEdge
import Verif.Model.OutlineMerge
import Verif.Spec.Merged
import Verif.Lemmas.OutlineMerge
import Verif.Lemmas.MergeSplit
import Verif.Lemmas.TurnsMerge
import Verif.Lemmas.MergeHits
import Verif.Lemmas.MergeParted
import Verif.Lemmas.MergeRegion
import Verif.Lemmas.MergeDone
import Verif.Props.MergeDone
import Verif.Lemmas.Boxes
import Verif.Lemmas.BoxHits
import Verif.Lemmas.BoxCorner
import Verif.Lemmas.BoxRect
import Verif.Props.MergeNumberCases
import Verif.Props.Merge
import Verif.Props.MergeKept
import Verif.Props.MergeCases
import Verif.Model.Cutout
import Verif.Spec.Plate
import Verif.Props.Cutout
import Verif.Props.CutoutCases
import Verif.Props.CutoutHole
import Verif.Props.CutoutRound
import Verif.Model.IdfInstance
import Verif.Spec.IdfInstance
import Verif.Props.IdfInstance
import Verif.Lemmas.RegionCircle
import Verif.Props.RegionCircle
import Verif.Props.InsideCircle
import Verif.Props.RegionCircleCases
import Verif.Model.DrillBundle
import Verif.Spec.DrillBundle
import Verif.Lemmas.DrillBundle
import Verif.Lemmas.InsideDisc
import Verif.Props.DrillBundle
import Verif.Props.DrillBoard
import Verif.Props.DrillCases
import Verif.Spec.IdfConvert
import Verif.Props.IdfConvert
import Verif.Props.IdfConvertCases
import Verif.Model.IdfBody
import Verif.Spec.IdfBody
import Verif.Props.IdfBody
import Verif.Props.IdfBodyCases
import Verif.Model.IdfUse
import Verif.Spec.IdfUse
import Verif.Props.IdfUse
import Verif.Model.ApiModel
import Verif.Spec.ApiModel
import Verif.Props.ApiModel
import Verif.Props.NewModel
import Verif.Model.ApiGlobals
import Verif.Spec.ApiGlobals
import Verif.Props.ApiGlobals
import Verif.Model.ExportScale
import Verif.Spec.ExportScale
import Verif.Props.ExportScale
import Verif.Model.IdfClear
import Verif.Spec.IdfClear
import Verif.Props.IdfClear
import Verif.Model.IdfPart
import Verif.Spec.IdfPart
import Verif.Props.IdfPart
import Verif.Model.IdfSlot
import Verif.Spec.IdfSlot
import Verif.Props.IdfSlot
import Verif.Model.NurbsCurve
import Verif.Spec.NurbsCurve
import Verif.Lemmas.Basis
import Verif.Props.NurbsCurve
import Verif.Model.CurveEnds
import Verif.Spec.CurveEnds
import Verif.Props.CurveEnds
import Verif.Model.Handout
import Verif.Spec.Handout
import Verif.Props.Handout
import Verif.Model.IdfSetters
import Verif.Spec.IdfSetters
import Verif.Props.IdfSetters
import Verif.Model.Accessors
import Verif.Spec.Accessors
import Verif.Props.Accessors
import Verif.Model.HandoutSplit
import Verif.Props.HandoutSplit
import Verif.Model.Ownership
import Verif.Spec.Ownership
import Verif.Props.Ownership
import Verif.Props.AccessorsSaved
import Verif.Model.LoopEdge
import Verif.Spec.LoopEdge
import Verif.Props.LoopEdge
import Verif.Model.Look
import Verif.Props.Look
import Verif.Model.MergeTool
import Verif.Spec.MergeTool
import Verif.Props.MergeTool
import Verif.Model.MergeLine
import Verif.Spec.MergeLine
import Verif.Props.MergeLine
import Verif.Model.Plane
import Verif.Spec.Plane
import Verif.Props.Plane
import Verif.Model.IdfMain
import Verif.Spec.IdfMain
import Verif.Props.IdfMain
import Verif.Props.IdfJunk
import Verif.Spec.IdfHole
import Verif.Props.IdfHole
import Verif.Spec.IdfPlaceWords
import Verif.Props.IdfPlaceWords
import Verif.Spec.IdfOutlineWords
import Verif.Props.IdfOutlineWords
import Verif.Spec.IdfSectionWords
import Verif.Props.IdfSectionWords
import Verif.Spec.IdfNoteWords
import Verif.Props.IdfNoteWords
import Verif.Spec.IdfHoleSection
import Verif.Props.IdfHoleSection
import Verif.Spec.IdfPlaceSection
import Verif.Props.IdfPlaceSection
