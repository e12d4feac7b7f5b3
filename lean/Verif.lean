import Verif.Model.AdminClient
import Verif.Model.AdminServer
import Verif.Model.AdminWire
import Verif.Model.Announcer
import Verif.Model.CSubscription
import Verif.Model.CSubscriptionMem
import Verif.Model.CTreeHeap
import Verif.Model.Cli
import Verif.Model.CliOutput
import Verif.Model.Codec
import Verif.Model.Collection
import Verif.Model.CompClient
import Verif.Model.Component
import Verif.Model.Conditions
import Verif.Model.Convert
import Verif.Model.ConvertFiles
import Verif.Model.Dict
import Verif.Model.Dummy
import Verif.Model.Duo
import Verif.Model.Engine
import Verif.Model.Event
import Verif.Model.EventerHost
import Verif.Model.EventerServer
import Verif.Model.FlushQueue
import Verif.Model.Herald
import Verif.Model.Link
import Verif.Model.Lmdb
import Verif.Model.LmdbAsync
import Verif.Model.LmdbBytes
import Verif.Model.LmdbEnv
import Verif.Model.MainRunner
import Verif.Model.Manager
import Verif.Model.Matches
import Verif.Model.Memory
import Verif.Model.Monitor
import Verif.Model.MonitorReady
import Verif.Model.OldCodec
import Verif.Model.Pair
import Verif.Model.Plant
import Verif.Model.Publish
import Verif.Model.Relay
import Verif.Model.ReqClient
import Verif.Model.Runner
import Verif.Model.Sbs
import Verif.Model.Station
import Verif.Model.Subscription
import Verif.Model.Sync
import Verif.Model.SyncReport
import Verif.Model.Table
import Verif.Model.Time
import Verif.Model.Wire
import Verif.Proof.AdminServer
import Verif.Proof.AdminWire
import Verif.Proof.AdminWireLive
import Verif.Proof.Announcer
import Verif.Proof.Answers
import Verif.Proof.CSubscription
import Verif.Proof.CSubscriptionMem
import Verif.Proof.CTreeHeap
import Verif.Proof.CTreeHeapInv
import Verif.Proof.CTreeHeapNoFail
import Verif.Proof.CTreeHeapOps
import Verif.Proof.CTreeHeapTree
import Verif.Proof.CTreeHeapUse
import Verif.Proof.Codec
import Verif.Proof.CodecReads
import Verif.Proof.Collection
import Verif.Proof.CompClient
import Verif.Proof.Component
import Verif.Proof.Conditions
import Verif.Proof.Convert
import Verif.Proof.Deliveries
import Verif.Proof.Dict
import Verif.Proof.Duo
import Verif.Proof.DuoLive
import Verif.Proof.DuoStore
import Verif.Proof.Engine
import Verif.Proof.EngineCalls
import Verif.Proof.EngineLive
import Verif.Proof.EngineOrigin
import Verif.Proof.EngineTimes
import Verif.Proof.Event
import Verif.Proof.EventerConns
import Verif.Proof.EventerHost
import Verif.Proof.EventerNotes
import Verif.Proof.EventerServer
import Verif.Proof.Flatten
import Verif.Proof.FlushQueue
import Verif.Proof.FlushQueueBound
import Verif.Proof.FlushQueueCalls
import Verif.Proof.FlushQueueLive
import Verif.Proof.Forever
import Verif.Proof.Herald
import Verif.Proof.HostActs
import Verif.Proof.KeptSeries
import Verif.Proof.Link
import Verif.Proof.LinkRun
import Verif.Proof.LmdbAsync
import Verif.Proof.LmdbBytes
import Verif.Proof.LmdbBytesEnv
import Verif.Proof.LmdbBytesOps
import Verif.Proof.LmdbBytesRun
import Verif.Proof.LmdbCleanup
import Verif.Proof.LmdbFlushes
import Verif.Proof.LmdbLive
import Verif.Proof.LmdbOpen
import Verif.Proof.LmdbPages
import Verif.Proof.LmdbRange
import Verif.Proof.LmdbRecover
import Verif.Proof.LmdbRef
import Verif.Proof.LmdbRefine
import Verif.Proof.LmdbRefs
import Verif.Proof.LmdbRel
import Verif.Proof.LmdbReturned
import Verif.Proof.LmdbRun
import Verif.Proof.LmdbSelect
import Verif.Proof.LmdbSeries
import Verif.Proof.LmdbServer
import Verif.Proof.LmdbStore
import Verif.Proof.MainRunner
import Verif.Proof.MonitorReady
import Verif.Proof.OldCodec
import Verif.Proof.PagesDuring
import Verif.Proof.PagesRestart
import Verif.Proof.Pair
import Verif.Proof.PairLive
import Verif.Proof.Plant
import Verif.Proof.Publish
import Verif.Proof.ReadSeries
import Verif.Proof.ReadWrites
import Verif.Proof.Relay
import Verif.Proof.RelayBlocks
import Verif.Proof.RelayClient
import Verif.Proof.RelayEngine
import Verif.Proof.RelayEngineLive
import Verif.Proof.RelayOffer
import Verif.Proof.RelayWire
import Verif.Proof.RelayWireLive
import Verif.Proof.ReqClient
import Verif.Proof.Runner
import Verif.Proof.Sbs
import Verif.Proof.Schedule
import Verif.Proof.ServerDuring
import Verif.Proof.StationBackend
import Verif.Proof.StationCalls
import Verif.Proof.StationConns
import Verif.Proof.StationKept
import Verif.Proof.StationRun
import Verif.Proof.StationSince
import Verif.Proof.Subscription
import Verif.Proof.SubscriptionApi
import Verif.Proof.SubscriptionCreate
import Verif.Proof.SubscriptionDisjoint
import Verif.Proof.SubscriptionOps
import Verif.Proof.Sync
import Verif.Proof.SyncLive
import Verif.Proof.SyncReport
import Verif.Proof.SyncSessions
import Verif.Proof.Table
import Verif.Proof.Tactics
import Verif.Proof.Time
import Verif.Proof.Wire
import Verif.Proof.WireAcks
import Verif.Proof.WireAlive
import Verif.Proof.WireLive
import Verif.Proof.WireNotify
import Verif.Proof.WireRun
import Verif.Props.AdminClient
import Verif.Props.AdminServer
import Verif.Props.AdminWire
import Verif.Props.AllQueries
import Verif.Props.Announce
import Verif.Props.Answers
import Verif.Props.Backends
import Verif.Props.CSubscriptionMem
import Verif.Props.CTreeHeap
import Verif.Props.CleanupVisible
import Verif.Props.Cli
import Verif.Props.CliOutput
import Verif.Props.Codec
import Verif.Props.Collection
import Verif.Props.CompClient
import Verif.Props.Component
import Verif.Props.ComponentLive
import Verif.Props.Conditions
import Verif.Props.Convert
import Verif.Props.ConvertFiles
import Verif.Props.Dummy
import Verif.Props.Duo
import Verif.Props.DuoSeries
import Verif.Props.Engine
import Verif.Props.EngineLive
import Verif.Props.EngineLmdb
import Verif.Props.Event
import Verif.Props.EventerHost
import Verif.Props.EventerServer
import Verif.Props.FlushQueue
import Verif.Props.FlushVisible
import Verif.Props.HeraldReach
import Verif.Props.Link
import Verif.Props.LmdbAsync
import Verif.Props.LmdbBytes
import Verif.Props.LmdbEnv
import Verif.Props.LmdbLatest
import Verif.Props.LmdbLive
import Verif.Props.LmdbLookup
import Verif.Props.LmdbOpen
import Verif.Props.LmdbPages
import Verif.Props.LmdbRange
import Verif.Props.LmdbRecovery
import Verif.Props.LmdbServer
import Verif.Props.LmdbTimeseries
import Verif.Props.MainRunner
import Verif.Props.Manager
import Verif.Props.Memory
import Verif.Props.MonitorReady
import Verif.Props.OldCodec
import Verif.Props.PagesDuring
import Verif.Props.PagesRestart
import Verif.Props.Plant
import Verif.Props.Publish
import Verif.Props.ReadSeries
import Verif.Props.ReadWrites
import Verif.Props.Relay
import Verif.Props.RelayLive
import Verif.Props.RelayReach
import Verif.Props.ReqClient
import Verif.Props.RestartSeries
import Verif.Props.Runner
import Verif.Props.RunnerLive
import Verif.Props.Sbs
import Verif.Props.ServerDuring
import Verif.Props.ServerRestart
import Verif.Props.Shutdown
import Verif.Props.Station
import Verif.Props.StationRestart
import Verif.Props.StationSeries
import Verif.Props.Subscription
import Verif.Props.Sync
import Verif.Props.SyncLive
import Verif.Props.SyncReport
import Verif.Props.Time
import Verif.Props.Wire
import Verif.Props.WireNotify
import Verif.Spec.AdminServer
import Verif.Spec.AdminWire
import Verif.Spec.Codec
import Verif.Spec.Collection
import Verif.Spec.CompClient
import Verif.Spec.Conditions
import Verif.Spec.Convert
import Verif.Spec.Duo
import Verif.Spec.Engine
import Verif.Spec.EngineLive
import Verif.Spec.Event
import Verif.Spec.EventerHost
import Verif.Spec.EventerServer
import Verif.Spec.FlushQueue
import Verif.Spec.Herald
import Verif.Spec.Link
import Verif.Spec.Lmdb
import Verif.Spec.LmdbBytes
import Verif.Spec.LmdbLive
import Verif.Spec.MainRunner
import Verif.Spec.Matches
import Verif.Spec.OldCodec
import Verif.Spec.PagesDuring
import Verif.Spec.Pair
import Verif.Spec.Plant
import Verif.Spec.RelayLive
import Verif.Spec.ReqClient
import Verif.Spec.Sbs
import Verif.Spec.Schedule
import Verif.Spec.Station
import Verif.Spec.Subscription
import Verif.Spec.Sync
import Verif.Spec.SyncReport
import Verif.Spec.Time
import Verif.Spec.Wire
