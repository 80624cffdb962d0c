import Verif.Props.Gateway
import Verif.Props.RedisExact
import Verif.Props.ChunksExact
import Verif.Props.RelayLoss
import Verif.Props.WatchExact
import Verif.Props.RelayBlind
import Verif.Props.WaitGroup
import Verif.Props.Pools
import Verif.Props.Limits
import Verif.Props.RelayExact
import Verif.Model.Go
import Verif.Lemmas.Go
import Verif.Model.Filter
import Verif.Lemmas.Filter
import Verif.Props.Filter
import Verif.Model.Cache
import Verif.Props.Ids
import Verif.Lemmas.Cache
import Verif.Props.Cache
import Verif.Props.Snapshot
import Verif.Props.Outgoing
import Verif.Lemmas.Handlers
import Verif.Lemmas.Redis
import Verif.Lemmas.Wire
import Verif.Props.Handlers
import Verif.Props.Redis
import Verif.Lemmas.Invoke
import Verif.Lemmas.Size
import Verif.Props.Invoke
import Verif.Lemmas.RelayTerm
import Verif.Props.Relay
import Verif.Props.Stranded
import Verif.Lemmas.Watch
import Verif.Props.Watch
import Verif.Lemmas.Mmf
import Verif.Props.Mmf
import Verif.Lemmas.Matchmaker
import Verif.Props.Matchmaker
import Verif.Props.Logging
import Verif.Lemmas.Poll
import Verif.Model.System
import Verif.Lemmas.System
import Verif.Props.EndToEnd
import Verif.Props.Lifecycle
import Verif.Model.Pipeline
import Verif.Spec.Pipeline
import Verif.Lemmas.Pipeline
import Verif.Props.Pipeline
import Verif.Conformance.RepoTests
import Verif.Lemmas.SystemIds
import Verif.Props.SystemIds
import Verif.Props.Round
import Verif.Props.Rounds
import Verif.Model.Messages
import Verif.Lemmas.Messages
import Verif.Props.Messages
import Verif.Model.Config
import Verif.Spec.Config
import Verif.Lemmas.Config
import Verif.Props.Config
import Verif.Model.Example
import Verif.Spec.Example
import Verif.Props.Example
import Verif.Spec.Text
import Verif.Spec.Numbers
import Verif.Lemmas.Utf8
import Verif.Lemmas.Numbers
import Verif.Props.Text
import Verif.Model.Serve
import Verif.Spec.Serve
import Verif.Lemmas.Serve
import Verif.Props.Serve
import Verif.Model.Measure
import Verif.Props.Measure
import Verif.Model.Listen
import Verif.Props.Listen
import Verif.Model.Requests
import Verif.Spec.Schema
import Verif.Lemmas.Schema
import Verif.Props.Schema
import Verif.Model.Json
import Verif.Spec.Json
import Verif.Lemmas.Json
import Verif.Lemmas.JsonWrite
import Verif.Lemmas.JsonTime
import Verif.Lemmas.JsonBlank
import Verif.Model.ProtoJson
import Verif.Spec.ProtoJson
import Verif.Lemmas.ProtoJson
import Verif.Lemmas.ProtoJsonWrite
import Verif.Lemmas.ProtoJsonText
import Verif.Lemmas.ProtoJsonWire
import Verif.Lemmas.ProtoJsonTypes
import Verif.Props.Json
import Verif.Model.Frontend
import Verif.Props.Frontend
import Verif.Props.FailedCalls
import Verif.Model.MainLoop
import Verif.Props.MainLoop
import Verif.Model.Timeouts
import Verif.Props.Timeouts
import Verif.Props.ExampleRest
import Verif.Model.Errors
import Verif.Props.Errors
import Verif.Props.Resp
import Verif.Props.Restart
import Verif.Spec.OwnBatches
import Verif.Lemmas.OwnBatches
import Verif.Props.OwnBatches
import Verif.Props.Scrape
import Verif.Props.Details
import Verif.Props.Latency
import Verif.Props.Lag
import Verif.Props.Outage
import Verif.Props.Delay
import Verif.Props.Load
import Verif.Model.Timed
import Verif.Props.Timed
import Verif.Model.WatchTime
import Verif.Lemmas.WatchTime
import Verif.Props.WatchTime
import Verif.Props.Memory
import Verif.Props.Refused
import Verif.Model.Stop
import Verif.Lemmas.Stop
import Verif.Props.Stop
import Verif.Props.Fair
import Verif.Props.Duplex
import Verif.Props.OwnRounds
import Verif.Props.Descriptor
import Verif.Props.Routing
import Verif.Props.LogLines
import Verif.Props.ConfigLog
import Verif.Props.Closing
import Verif.Props.ChunkSize
import Verif.Props.ChunkArrival
import Verif.Model.CycleLines
import Verif.Props.CycleLines
