import Verif.Lemmas.AMap
import Verif.Lemmas.Abs
import Verif.Lemmas.Access
import Verif.Lemmas.Alias
import Verif.Lemmas.Archive
import Verif.Lemmas.ArchiveVersion
import Verif.Lemmas.Bfs
import Verif.Lemmas.Binary
import Verif.Lemmas.Blob
import Verif.Lemmas.Box
import Verif.Lemmas.Calls
import Verif.Lemmas.Calm
import Verif.Lemmas.ClearViews
import Verif.Lemmas.Copy
import Verif.Lemmas.Create
import Verif.Lemmas.Descriptors
import Verif.Lemmas.Destroy
import Verif.Lemmas.DispatchBack
import Verif.Lemmas.Dispatcher
import Verif.Lemmas.DrawGeneric
import Verif.Lemmas.Drawing
import Verif.Lemmas.Files
import Verif.Lemmas.FilesLeft
import Verif.Lemmas.FollowAny
import Verif.Lemmas.FollowSelf
import Verif.Lemmas.Forest
import Verif.Lemmas.ForestHistory
import Verif.Lemmas.GraphAssign
import Verif.Lemmas.GraphSearch
import Verif.Lemmas.Handlers
import Verif.Lemmas.ItemAnswers
import Verif.Lemmas.ItemCalls
import Verif.Lemmas.ItemChain
import Verif.Lemmas.ItemChainSelf
import Verif.Lemmas.ItemClass
import Verif.Lemmas.ItemClear
import Verif.Lemmas.ItemCopy
import Verif.Lemmas.ItemHeap
import Verif.Lemmas.ItemHist
import Verif.Lemmas.ItemKeeps
import Verif.Lemmas.ItemLoop
import Verif.Lemmas.ItemNames
import Verif.Lemmas.ItemOrder
import Verif.Lemmas.ItemOrderCalls
import Verif.Lemmas.ItemOrderRuns
import Verif.Lemmas.ItemPublish
import Verif.Lemmas.ItemReenter
import Verif.Lemmas.ItemRestore
import Verif.Lemmas.ItemSim
import Verif.Lemmas.ItemStructural
import Verif.Lemmas.ItemTidy
import Verif.Lemmas.ItemTyped
import Verif.Lemmas.Items
import Verif.Lemmas.ItemsAll
import Verif.Lemmas.Kill
import Verif.Lemmas.Lifetime
import Verif.Lemmas.LoadInto
import Verif.Lemmas.Loose
import Verif.Lemmas.ManyGraphs
import Verif.Lemmas.Messages
import Verif.Lemmas.Mirror
import Verif.Lemmas.NoSelf
import Verif.Lemmas.Opaque
import Verif.Lemmas.OpaqueQueries
import Verif.Lemmas.PairKept
import Verif.Lemmas.PathEvents
import Verif.Lemmas.PathEventsSelf
import Verif.Lemmas.PathLemmas
import Verif.Lemmas.Plugins
import Verif.Lemmas.Poses
import Verif.Lemmas.PubCopy
import Verif.Lemmas.Publish
import Verif.Lemmas.PublishSelf
import Verif.Lemmas.Publisher
import Verif.Lemmas.Queue
import Verif.Lemmas.QueueConns
import Verif.Lemmas.QueueMem
import Verif.Lemmas.QueueRun
import Verif.Lemmas.QueueSelf
import Verif.Lemmas.QueueStrict
import Verif.Lemmas.Reenter
import Verif.Lemmas.ReenterViews
import Verif.Lemmas.Reuse
import Verif.Lemmas.ReuseAlloc
import Verif.Lemmas.ReuseBelow
import Verif.Lemmas.ReuseForest
import Verif.Lemmas.ReuseKept
import Verif.Lemmas.ReuseQueries
import Verif.Lemmas.ReuseRun
import Verif.Lemmas.ReuseSelf
import Verif.Lemmas.ReuseSteps
import Verif.Lemmas.Search
import Verif.Lemmas.SelfEdge
import Verif.Lemmas.Shape
import Verif.Lemmas.Shuffle
import Verif.Lemmas.ShuffleCalls
import Verif.Lemmas.ShuffleExact
import Verif.Lemmas.ShuffleLast
import Verif.Lemmas.ShuffleRemove
import Verif.Lemmas.ShuffleRuns
import Verif.Lemmas.Sim
import Verif.Lemmas.SimLoops
import Verif.Lemmas.SimViews
import Verif.Lemmas.Slots
import Verif.Lemmas.Steps
import Verif.Lemmas.StructSelf
import Verif.Lemmas.StructViews
import Verif.Lemmas.Subs
import Verif.Lemmas.Threads
import Verif.Lemmas.Throws
import Verif.Lemmas.Transform
import Verif.Lemmas.TransformSelf
import Verif.Lemmas.TransformView
import Verif.Lemmas.ViewBuild
import Verif.Lemmas.ViewFollow
import Verif.Lemmas.ViewHistory
import Verif.Lemmas.ViewRemove
import Verif.Lemmas.ViewRemoveExact
import Verif.Lemmas.ViewRemoveSelf
import Verif.Lemmas.ViewReuse
import Verif.Lemmas.ViewSelf
import Verif.Lemmas.ViewSlots
import Verif.Lemmas.ViewUnsub
import Verif.Lemmas.ViewVisit
import Verif.Lemmas.Views
import Verif.Lemmas.Visit
import Verif.Lemmas.Viz
import Verif.Lemmas.VizSelf
import Verif.Lemmas.WF
import Verif.Lemmas.Written
import Verif.Model.AMap
import Verif.Model.Access
import Verif.Model.Alias
import Verif.Model.Archive
import Verif.Model.ArchiveVersion
import Verif.Model.Basic
import Verif.Model.Bfs
import Verif.Model.Binary
import Verif.Model.Blob
import Verif.Model.Boost
import Verif.Model.Box
import Verif.Model.Copy
import Verif.Model.Create
import Verif.Model.Descriptors
import Verif.Model.DispatchBack
import Verif.Model.Dispatcher
import Verif.Model.DrawGeneric
import Verif.Model.Drawing
import Verif.Model.EnvireGraph
import Verif.Model.Files
import Verif.Model.Graph
import Verif.Model.GraphAssign
import Verif.Model.ItemAssign
import Verif.Model.ItemClass
import Verif.Model.ItemLoop
import Verif.Model.ItemMove
import Verif.Model.ItemReenter
import Verif.Model.Items
import Verif.Model.Lifetime
import Verif.Model.LoadInto
import Verif.Model.ManyGraphs
import Verif.Model.Messages
import Verif.Model.Plugins
import Verif.Model.PubCopy
import Verif.Model.Publisher
import Verif.Model.Queue
import Verif.Model.QueueMem
import Verif.Model.Reenter
import Verif.Model.Reuse
import Verif.Model.Threads
import Verif.Model.Transform
import Verif.Model.TransformOps
import Verif.Model.TreeView
import Verif.Model.TwoGraphs
import Verif.Model.Util
import Verif.Model.ViewReuse
import Verif.Model.ViewSlots
import Verif.Model.ViewUnsub
import Verif.Model.Views
import Verif.Model.Visit
import Verif.Model.Viz
import Verif.Model.Widget
import Verif.Model.Zoom
import Verif.Props.C01
import Verif.Props.C02
import Verif.Props.C03
import Verif.Props.C03Self
import Verif.Props.C04
import Verif.Props.C04Self
import Verif.Props.C05
import Verif.Props.C06
import Verif.Props.C07
import Verif.Props.C07Self
import Verif.Props.C08
import Verif.Props.C09
import Verif.Props.C09Items
import Verif.Props.C09ItemsSelf
import Verif.Props.C09Self
import Verif.Props.C10
import Verif.Props.C100
import Verif.Props.C100Self
import Verif.Props.C101
import Verif.Props.C102
import Verif.Props.C103
import Verif.Props.C103Graph
import Verif.Props.C104
import Verif.Props.C104Flush
import Verif.Props.C105
import Verif.Props.C106
import Verif.Props.C107
import Verif.Props.C108
import Verif.Props.C109
import Verif.Props.C10Self
import Verif.Props.C11
import Verif.Props.C110
import Verif.Props.C111
import Verif.Props.C112
import Verif.Props.C113
import Verif.Props.C114
import Verif.Props.C115
import Verif.Props.C116
import Verif.Props.C117
import Verif.Props.C11Self
import Verif.Props.C12
import Verif.Props.C12Always
import Verif.Props.C12Self
import Verif.Props.C13
import Verif.Props.C14
import Verif.Props.C15
import Verif.Props.C16
import Verif.Props.C16Self
import Verif.Props.C17
import Verif.Props.C18
import Verif.Props.C18Self
import Verif.Props.C18Stale
import Verif.Props.C19
import Verif.Props.C20
import Verif.Props.C21
import Verif.Props.C21Self
import Verif.Props.C22
import Verif.Props.C23
import Verif.Props.C23Hand
import Verif.Props.C23Self
import Verif.Props.C24
import Verif.Props.C24Exact
import Verif.Props.C24Fresh
import Verif.Props.C24Self
import Verif.Props.C25
import Verif.Props.C26
import Verif.Props.C27
import Verif.Props.C27Graph
import Verif.Props.C27Self
import Verif.Props.C28
import Verif.Props.C28Self
import Verif.Props.C29
import Verif.Props.C30
import Verif.Props.C31
import Verif.Props.C31Exact
import Verif.Props.C32
import Verif.Props.C33
import Verif.Props.C33Self
import Verif.Props.C34
import Verif.Props.C34Graph
import Verif.Props.C35
import Verif.Props.C36
import Verif.Props.C37
import Verif.Props.C38
import Verif.Props.C39
import Verif.Props.C40
import Verif.Props.C41
import Verif.Props.C41Exact
import Verif.Props.C42
import Verif.Props.C42Self
import Verif.Props.C43
import Verif.Props.C44
import Verif.Props.C45
import Verif.Props.C45Self
import Verif.Props.C46
import Verif.Props.C47
import Verif.Props.C47Self
import Verif.Props.C48
import Verif.Props.C48Names
import Verif.Props.C49
import Verif.Props.C49Exact
import Verif.Props.C50
import Verif.Props.C51
import Verif.Props.C52
import Verif.Props.C53
import Verif.Props.C54
import Verif.Props.C55
import Verif.Props.C56
import Verif.Props.C57
import Verif.Props.C58
import Verif.Props.C59
import Verif.Props.C60
import Verif.Props.C61
import Verif.Props.C62
import Verif.Props.C63
import Verif.Props.C64
import Verif.Props.C65
import Verif.Props.C66
import Verif.Props.C67
import Verif.Props.C67Self
import Verif.Props.C68
import Verif.Props.C69
import Verif.Props.C70
import Verif.Props.C71
import Verif.Props.C72
import Verif.Props.C73
import Verif.Props.C74
import Verif.Props.C75
import Verif.Props.C76
import Verif.Props.C77
import Verif.Props.C78
import Verif.Props.C79
import Verif.Props.C80
import Verif.Props.C80Self
import Verif.Props.C81
import Verif.Props.C82
import Verif.Props.C82Self
import Verif.Props.C82Update
import Verif.Props.C83
import Verif.Props.C84
import Verif.Props.C85
import Verif.Props.C86
import Verif.Props.C87
import Verif.Props.C88
import Verif.Props.C89
import Verif.Props.C90
import Verif.Props.C91
import Verif.Props.C92
import Verif.Props.C93
import Verif.Props.C93Self
import Verif.Props.C94
import Verif.Props.C95
import Verif.Props.C96
import Verif.Props.C97
import Verif.Props.C98
import Verif.Props.C99
import Verif.Spec.AbsGraph
import Verif.Spec.AbsGraphLoops
import Verif.Spec.AbsGraphViews
import Verif.Spec.Access
import Verif.Spec.Between
import Verif.Spec.Binary
import Verif.Spec.Box
import Verif.Spec.Calm
import Verif.Spec.Demo
import Verif.Spec.DemoCodec
import Verif.Spec.DemoPose
import Verif.Spec.Described
import Verif.Spec.Dispatcher
import Verif.Spec.DrawGeneric
import Verif.Spec.Drawing
import Verif.Spec.Events
import Verif.Spec.GraphAssign
import Verif.Spec.Handlers
import Verif.Spec.ItemOrder
import Verif.Spec.ItemQueries
import Verif.Spec.Items
import Verif.Spec.ItemsAll
import Verif.Spec.Lifetime
import Verif.Spec.Loose
import Verif.Spec.ManyGraphs
import Verif.Spec.Mirror
import Verif.Spec.Opaque
import Verif.Spec.PathSpec
import Verif.Spec.Paths
import Verif.Spec.Queue
import Verif.Spec.QueueMem
import Verif.Spec.Reuse
import Verif.Spec.SelfView
import Verif.Spec.Shuffle
import Verif.Spec.Slots
import Verif.Spec.Threads
import Verif.Spec.Transform
import Verif.Spec.TreeHistory
import Verif.Spec.TreeView
import Verif.Spec.ViewCut
import Verif.Spec.Viz
import Verif.Spec.VizSelf
import Verif.Spec.Widget
import Verif.Spec.Written
