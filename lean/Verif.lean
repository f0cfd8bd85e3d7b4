import Verif.Lemmas.Automaton
import Verif.Lemmas.Bipart
import Verif.Lemmas.Blocks
import Verif.Lemmas.Build
import Verif.Lemmas.BuildEnts
import Verif.Lemmas.Chain
import Verif.Lemmas.Change
import Verif.Lemmas.Classify
import Verif.Lemmas.CmdLine
import Verif.Lemmas.CmdLineLoop
import Verif.Lemmas.Conserve
import Verif.Lemmas.Converge
import Verif.Lemmas.CopyDist
import Verif.Lemmas.Determinise
import Verif.Lemmas.Diffuse
import Verif.Lemmas.Dist
import Verif.Lemmas.DistRanks
import Verif.Lemmas.Even
import Verif.Lemmas.Expr
import Verif.Lemmas.ExprCall
import Verif.Lemmas.ExprMul
import Verif.Lemmas.ExprOps
import Verif.Lemmas.Fan
import Verif.Lemmas.File
import Verif.Lemmas.Flux
import Verif.Lemmas.Ghost
import Verif.Lemmas.Graph
import Verif.Lemmas.Hilbert
import Verif.Lemmas.Indset
import Verif.Lemmas.Int128
import Verif.Lemmas.LR
import Verif.Lemmas.LRPath
import Verif.Lemmas.LRRun
import Verif.Lemmas.LRTable
import Verif.Lemmas.Ledger
import Verif.Lemmas.Map
import Verif.Lemmas.Marks
import Verif.Lemmas.Mem
import Verif.Lemmas.ModifyGlobals
import Verif.Lemmas.ModifyNumbers
import Verif.Lemmas.ModifyWorld
import Verif.Lemmas.Momentum
import Verif.Lemmas.NewConn
import Verif.Lemmas.NewCopies
import Verif.Lemmas.Offsets
import Verif.Lemmas.Perm
import Verif.Lemmas.Polygon
import Verif.Lemmas.Profile
import Verif.Lemmas.ProfileInvert
import Verif.Lemmas.ProfilePrint
import Verif.Lemmas.ProfileRun
import Verif.Lemmas.ProfileTop
import Verif.Lemmas.ProfileWalk
import Verif.Lemmas.Reduce
import Verif.Lemmas.RefineQual
import Verif.Lemmas.Relabel
import Verif.Lemmas.Rows
import Verif.Lemmas.Scan
import Verif.Lemmas.SelSort
import Verif.Lemmas.Separate
import Verif.Lemmas.Serial
import Verif.Lemmas.Slots
import Verif.Lemmas.Sort
import Verif.Lemmas.Stats
import Verif.Lemmas.Statuses
import Verif.Lemmas.SwapChoice
import Verif.Lemmas.SwapMeasure
import Verif.Lemmas.SwapWorld
import Verif.Lemmas.Tables
import Verif.Lemmas.Tags
import Verif.Lemmas.Transfer
import Verif.Lemmas.Uniq
import Verif.Lemmas.Vtk
import Verif.Lemmas.VtkParts
import Verif.Lemmas.VtkTags
import Verif.Lemmas.Walk
import Verif.Model.AdaptDriver
import Verif.Model.Adj
import Verif.Model.Align
import Verif.Model.Amr
import Verif.Model.Any
import Verif.Model.Approach
import Verif.Model.ArrayOps
import Verif.Model.Automaton
import Verif.Model.Balance
import Verif.Model.Base64
import Verif.Model.Bcast
import Verif.Model.Bipart
import Verif.Model.Blocks
import Verif.Model.Box
import Verif.Model.Build
import Verif.Model.BuildParser
import Verif.Model.Classify
import Verif.Model.CmdLine
import Verif.Model.Coarsen
import Verif.Model.Collapse
import Verif.Model.Compare
import Verif.Model.Confined
import Verif.Model.Conserve
import Verif.Model.Correct
import Verif.Model.Cut
import Verif.Model.Determinise
import Verif.Model.Dist
import Verif.Model.Element
import Verif.Model.Expr
import Verif.Model.File
import Verif.Model.FileDir
import Verif.Model.FirstSets
import Verif.Model.Future
import Verif.Model.Ghost
import Verif.Model.Grammar
import Verif.Model.Graph
import Verif.Model.Hilbert
import Verif.Model.Indent
import Verif.Model.Indset
import Verif.Model.Int128
import Verif.Model.Laplace
import Verif.Model.Ledger
import Verif.Model.Linpart
import Verif.Model.Map
import Verif.Model.Marks
import Verif.Model.Mem
import Verif.Model.Metric
import Verif.Model.MetricInput
import Verif.Model.Migrate
import Verif.Model.Modify
import Verif.Model.ModifyWorld
import Verif.Model.Nbx
import Verif.Model.Offer
import Verif.Model.Owners
import Verif.Model.Parser
import Verif.Model.Path
import Verif.Model.Pool
import Verif.Model.Profile
import Verif.Model.Pvd
import Verif.Model.Quality
import Verif.Model.Reader
import Verif.Model.Reduce
import Verif.Model.Refine
import Verif.Model.RefineQual
import Verif.Model.Regex
import Verif.Model.Res
import Verif.Model.Scan
import Verif.Model.Shape
import Verif.Model.SharedAlloc
import Verif.Model.Simplify
import Verif.Model.SmallMat
import Verif.Model.Sort
import Verif.Model.Stats
import Verif.Model.Swap2d
import Verif.Model.Swap3d
import Verif.Model.SwapChoice
import Verif.Model.Tags
import Verif.Model.Transfer
import Verif.Model.UnmapMesh
import Verif.Model.Vtk
import Verif.Model.Xml
import Verif.Props.C01
import Verif.Props.C02
import Verif.Props.C03
import Verif.Props.C04
import Verif.Props.C05
import Verif.Props.C06
import Verif.Props.C07
import Verif.Props.C08
import Verif.Props.C09
import Verif.Props.C10
import Verif.Props.C11
import Verif.Props.C12
import Verif.Props.C13
import Verif.Props.C14
import Verif.Props.C15
import Verif.Props.C16
import Verif.Props.C17
import Verif.Props.C18
import Verif.Props.C19
import Verif.Props.C20
import Verif.Props.C21
import Verif.Props.C22
import Verif.Props.C23
import Verif.Props.C24
import Verif.Props.C25
import Verif.Props.C26
import Verif.Props.C27
import Verif.Props.C28
import Verif.Props.C29
import Verif.Props.C30
import Verif.Props.C31
import Verif.Props.C32
import Verif.Props.C32Dir
import Verif.Props.C33
import Verif.Props.C34
import Verif.Props.C35
import Verif.Props.C36
import Verif.Props.C37
import Verif.Props.C38
import Verif.Props.C39
import Verif.Props.C40
import Verif.Props.C41
import Verif.Props.C42
import Verif.Props.C43
import Verif.Props.C44
import Verif.Props.C45
import Verif.Props.C46
import Verif.Props.C47
import Verif.Props.C48
import Verif.Props.C49
import Verif.Props.C50
import Verif.Props.C51
import Verif.Props.C52
import Verif.Props.C53
import Verif.Props.C54
import Verif.Props.C55
import Verif.Props.C55b
import Verif.Props.C56
import Verif.Props.C56Choice
import Verif.Props.C56World
import Verif.Props.C57
import Verif.Props.C57Cavity
import Verif.Props.C57Examples
import Verif.Props.C57Lost
import Verif.Props.C58
import Verif.Props.C58Loss
import Verif.Props.C59
import Verif.Props.C60
import Verif.Props.C61
import Verif.Props.C62
import Verif.Props.C63
import Verif.Props.C64
import Verif.Props.C65
import Verif.Props.C66
import Verif.Props.C67
import Verif.Props.C68
import Verif.Props.C69
import Verif.Props.C70
import Verif.Props.C71
import Verif.Props.C72
import Verif.Props.C73
import Verif.Props.C74
import Verif.Props.C75
import Verif.Props.C76
import Verif.Props.C77
import Verif.Props.C78
import Verif.Props.C79
import Verif.Props.C80
import Verif.Props.C81
import Verif.Props.C82
import Verif.Props.C83
import Verif.Props.C84
import Verif.Spec.AdaptDriver
import Verif.Spec.Adj
import Verif.Spec.AdjRow
import Verif.Spec.Align
import Verif.Spec.Amr
import Verif.Spec.Any
import Verif.Spec.Approach
import Verif.Spec.ArrayOps
import Verif.Spec.Automaton
import Verif.Spec.Base64
import Verif.Spec.Bipart
import Verif.Spec.Box
import Verif.Spec.Cell
import Verif.Spec.Chain
import Verif.Spec.Classify
import Verif.Spec.Closure
import Verif.Spec.CmdLine
import Verif.Spec.Collapse
import Verif.Spec.CollapseMade
import Verif.Spec.Compare
import Verif.Spec.Confined
import Verif.Spec.Conserve
import Verif.Spec.Correct
import Verif.Spec.Cut
import Verif.Spec.Derived
import Verif.Spec.Determinise
import Verif.Spec.Dist
import Verif.Spec.Expr
import Verif.Spec.File
import Verif.Spec.Ghost
import Verif.Spec.Grammar
import Verif.Spec.Graph
import Verif.Spec.Hilbert
import Verif.Spec.Indent
import Verif.Spec.Indset
import Verif.Spec.Int128
import Verif.Spec.Layers
import Verif.Spec.Ledger
import Verif.Spec.Linpart
import Verif.Spec.Loop
import Verif.Spec.Map
import Verif.Spec.Marks
import Verif.Spec.MetricInput
import Verif.Spec.Migrate
import Verif.Spec.Modify
import Verif.Spec.ModifyWorld
import Verif.Spec.Owners
import Verif.Spec.Parents
import Verif.Spec.Parse
import Verif.Spec.Path
import Verif.Spec.Polygon
import Verif.Spec.Profile
import Verif.Spec.Pvd
import Verif.Spec.Reader
import Verif.Spec.RefineQual
import Verif.Spec.Regex
import Verif.Spec.Scan
import Verif.Spec.Shape
import Verif.Spec.Simplify
import Verif.Spec.SmallMat
import Verif.Spec.Sort
import Verif.Spec.Stats
import Verif.Spec.SwapChoice
import Verif.Spec.Table
import Verif.Spec.Tags
import Verif.Spec.Transfer
import Verif.Spec.Triangulation
import Verif.Spec.UnmapMesh
import Verif.Spec.Vtk
import Verif.Spec.Xml
import Verif.Audit
