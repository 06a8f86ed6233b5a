import Verif.Model.Accesses
import Verif.Model.Announcers
import Verif.Model.Base
import Verif.Model.CacheMap
import Verif.Model.Calls
import Verif.Model.ConcurrentMeter
import Verif.Model.ConcurrentValue
import Verif.Model.Conf
import Verif.Model.Counter
import Verif.Model.Counting
import Verif.Model.Dataproxy
import Verif.Model.Deciding
import Verif.Model.Deferring
import Verif.Model.Disclosed
import Verif.Model.Dump
import Verif.Model.Ends
import Verif.Model.Failing
import Verif.Model.FloatText
import Verif.Model.Floating
import Verif.Model.Goroutine
import Verif.Model.Handlers
import Verif.Model.Hash
import Verif.Model.Identity
import Verif.Model.In
import Verif.Model.Iterating
import Verif.Model.Keygen
import Verif.Model.ListAccess
import Verif.Model.LockOrder
import Verif.Model.Looking
import Verif.Model.Lra
import Verif.Model.MapAccess
import Verif.Model.Marking
import Verif.Model.Meter
import Verif.Model.Out
import Verif.Model.Pack
import Verif.Model.Places
import Verif.Model.Print
import Verif.Model.Profile
import Verif.Model.Profiling
import Verif.Model.Program
import Verif.Model.Propagation
import Verif.Model.RWMutex
import Verif.Model.Recorders
import Verif.Model.Reload
import Verif.Model.Sampler
import Verif.Model.Sender
import Verif.Model.Session
import Verif.Model.Step
import Verif.Model.Stepwise
import Verif.Model.Sweeping
import Verif.Model.Tcp
import Verif.Model.Trace
import Verif.Model.Udp
import Verif.Model.Util
import Verif.Model.Value
import Verif.Proofs.Apart
import Verif.Proofs.Begin
import Verif.Proofs.Bounded
import Verif.Proofs.Closing
import Verif.Proofs.ConcurrentValue
import Verif.Proofs.End
import Verif.Proofs.Figures
import Verif.Proofs.Floating
import Verif.Proofs.Frame
import Verif.Proofs.Hush
import Verif.Proofs.In
import Verif.Proofs.Interleaving
import Verif.Proofs.Iterating
import Verif.Proofs.Late
import Verif.Proofs.Ledger
import Verif.Proofs.Lineage
import Verif.Proofs.Lra
import Verif.Proofs.Meter
import Verif.Proofs.Moves
import Verif.Proofs.Network
import Verif.Proofs.Out
import Verif.Proofs.Plain
import Verif.Proofs.ReadAny
import Verif.Proofs.Record
import Verif.Proofs.Recording
import Verif.Proofs.References
import Verif.Proofs.Safe
import Verif.Proofs.Same
import Verif.Proofs.SharedTable
import Verif.Proofs.Stepwise
import Verif.Proofs.Story
import Verif.Proofs.Stream
import Verif.Proofs.Tables
import Verif.Proofs.Trace
import Verif.Proofs.Value
import Verif.Proofs.Wire
import Verif.Proofs.WirePack
import Verif.Props.Accesses
import Verif.Props.Active
import Verif.Props.ActiveCount
import Verif.Props.Announcers
import Verif.Props.Blobs
import Verif.Props.Bounded
import Verif.Props.CacheMap
import Verif.Props.ClientAddress
import Verif.Props.Collector
import Verif.Props.ConcurrentMeter
import Verif.Props.ConcurrentValue
import Verif.Props.Conf
import Verif.Props.Counters
import Verif.Props.Counting
import Verif.Props.Dataproxy
import Verif.Props.Deciding
import Verif.Props.Deferring
import Verif.Props.Delivery
import Verif.Props.Disclosed
import Verif.Props.Dump
import Verif.Props.Ending
import Verif.Props.Ends
import Verif.Props.Errors
import Verif.Props.Failing
import Verif.Props.Fields
import Verif.Props.FloatText
import Verif.Props.Floating
import Verif.Props.Goroutine
import Verif.Props.Handlers
import Verif.Props.Hash
import Verif.Props.HttpEnds
import Verif.Props.HttpLog
import Verif.Props.Identity
import Verif.Props.IpText
import Verif.Props.Iterating
import Verif.Props.Keygen
import Verif.Props.Late
import Verif.Props.Lineage
import Verif.Props.ListAccess
import Verif.Props.Listing
import Verif.Props.Lives
import Verif.Props.LockOrder
import Verif.Props.Locks
import Verif.Props.Looking
import Verif.Props.Lra
import Verif.Props.MapAccess
import Verif.Props.Marking
import Verif.Props.Meter
import Verif.Props.Nested
import Verif.Props.Network
import Verif.Props.Numbers
import Verif.Props.Options
import Verif.Props.Packs
import Verif.Props.Panics
import Verif.Props.Places
import Verif.Props.Print
import Verif.Props.Profile
import Verif.Props.Profiling
import Verif.Props.Program
import Verif.Props.Propagation
import Verif.Props.Recorders
import Verif.Props.Recording
import Verif.Props.References
import Verif.Props.Reload
import Verif.Props.Requests
import Verif.Props.Sampling
import Verif.Props.Sender
import Verif.Props.Services
import Verif.Props.Session
import Verif.Props.Starting
import Verif.Props.Steps
import Verif.Props.Stepwise
import Verif.Props.Story
import Verif.Props.StrMatch
import Verif.Props.Stuck
import Verif.Props.StuckCollector
import Verif.Props.Sweeping
import Verif.Props.Tcp
import Verif.Props.Text
import Verif.Props.Triggers
import Verif.Props.Udp
import Verif.Props.Unreadable
import Verif.Props.Values
import Verif.Props.WriteSize
import Verif.Spec.Accesses
import Verif.Spec.Answers
import Verif.Spec.Apart
import Verif.Spec.Averaging
import Verif.Spec.Bounded
import Verif.Spec.Collector
import Verif.Spec.Config
import Verif.Spec.Counters
import Verif.Spec.Counting
import Verif.Spec.Datagram
import Verif.Spec.Deciding
import Verif.Spec.Deferring
import Verif.Spec.Disclosed
import Verif.Spec.Failing
import Verif.Spec.Files
import Verif.Spec.FloatText
import Verif.Spec.Floating
import Verif.Spec.Identity
import Verif.Spec.Input
import Verif.Spec.Lineage
import Verif.Spec.Looking
import Verif.Spec.Marking
import Verif.Spec.Network
import Verif.Spec.OMap
import Verif.Spec.Options
import Verif.Spec.Profiling
import Verif.Spec.Program
import Verif.Spec.Propagation
import Verif.Spec.Race
import Verif.Spec.Recorders
import Verif.Spec.Recording
import Verif.Spec.References
import Verif.Spec.Reply
import Verif.Spec.Requests
import Verif.Spec.Sampling
import Verif.Spec.Services
import Verif.Spec.Session
import Verif.Spec.Stepwise
import Verif.Spec.Story
import Verif.Spec.Stream
import Verif.Spec.Stuck
import Verif.Spec.Sweeping
import Verif.Spec.Tree
import Verif.Spec.Window
import Verif.Spec.Wire
import Verif.Spec.WirePack
