import Verif.Props.Residue
import Verif.Props.Util
import Verif.Props.Config
import Verif.Props.Signature
import Verif.Props.Message
import Verif.Props.Pedersen
import Verif.Props.FujiOkam
import Verif.Props.Honesty
import Verif.Props.Nonneg
import Verif.Props.Equality
import Verif.Props.Bridge
import Verif.Props.LRS
import Verif.Props.Shuffle
import Verif.Props.Server
import Verif.Props.Registration
import Verif.Props.Bridges
import Verif.Props.Signing
import Verif.Props.Votes
import Verif.Lemmas.RoundView
import Verif.Lemmas.RoundHop
import Verif.Lemmas.RoundInv
import Verif.Lemmas.RoundStep
import Verif.Lemmas.RoundServer
import Verif.Lemmas.RoundCoord
import Verif.Lemmas.RoundMain
import Verif.Lemmas.RoundLoop
import Verif.Model.Orderly
import Verif.Lemmas.RoundSys
import Verif.Lemmas.RoundRun
import Verif.Props.RoundSpec
import Verif.Lemmas.RoundLedger
import Verif.Lemmas.RoundQuiet
import Verif.Lemmas.ExecOrderly
import Verif.Props.Rounds
import Verif.Lemmas.RoundBases
import Verif.Props.RoundTables
import Verif.Props.Leave
import Verif.Props.ServerDown
import Verif.Props.Phases
import Verif.Props.Timing
import Verif.Lemmas.HopTotal
import Verif.Props.Client
import Verif.Props.Robust
import Verif.Lemmas.Params
import Verif.Lemmas.RoundFrozen
import Verif.Props.Participant
import Verif.Lemmas.HonestRun
import Verif.Props.HonestyRun
import Verif.Lemmas.Prov
import Verif.Lemmas.NoStop
import Verif.Lemmas.Routing
import Verif.Props.Routing
import Verif.Props.Liveness
import Verif.Lemmas.Drain
import Verif.Props.Progress
import Verif.Props.Gate
import Verif.Props.ClientGuard
import Verif.Model.Command
import Verif.Props.Command
import Verif.Lemmas.DDH
import Verif.Props.Unlinkable
import Verif.Props.PostsSpec
import Verif.Lemmas.Collecting
import Verif.Props.EndToEnd
import Verif.Props.DeliverySpec
import Verif.Lemmas.Delivery
import Verif.Props.Delivery
import Verif.Lemmas.Counters
import Verif.Props.CountersSpec
import Verif.Props.Counters
import Verif.Model.Micro
import Verif.Props.MicroSpec
import Verif.Lemmas.Micro
import Verif.Lemmas.MicroSim
import Verif.Lemmas.MicroExec
import Verif.Props.Micro
import Verif.Model.Crash
import Verif.Props.CrashSpec
import Verif.Lemmas.CrashSim
import Verif.Lemmas.CrashExec
import Verif.Props.Crash
import Verif.Props.Float
import Verif.Model.Launch
import Verif.Props.Launch
import Verif.Model.Restart
import Verif.Props.Restart
import Verif.Props.RestartAny
import Verif.Model.ClientRace
import Verif.Props.ClientRace
import Verif.Model.Operator
import Verif.Props.Operator
import Verif.Props.LateServer
import Verif.Model.HonestyGen
import Verif.Props.HonestyGen
import Verif.Props.Privacy
import Verif.Model.Listener
import Verif.Props.Listener
import Verif.Model.MapRace
import Verif.Props.MapRaceSpec
import Verif.Props.MapRace
import Verif.Model.Backlog
import Verif.Lemmas.Backlog
import Verif.Lemmas.BacklogSim
import Verif.Props.Backlog
import Verif.Model.Gob
import Verif.Lemmas.Gob
import Verif.Lemmas.GobEvent
import Verif.Props.Gob
import Verif.Model.Protobuf
import Verif.Lemmas.Protobuf
import Verif.Props.Protobuf
import Verif.Model.Wire
import Verif.Lemmas.Wire
import Verif.Props.Wire
import Verif.Model.ShuffleBytes
import Verif.Lemmas.ShuffleBytes
import Verif.Props.ShuffleBytes
import Verif.Props.Formats
import Verif.Model.Links
import Verif.Props.Links
import Verif.Props.RingHidden
import Verif.Model.RingBytes
import Verif.Props.RingBytes
import Verif.Props.RingTwice
import Verif.Model.BiffleProof
import Verif.Props.BiffleProof
import Verif.Props.ShuffleForge
import Verif.Props.RequestHiding
import Verif.Props.Replay
import Verif.Props.Stray
import Verif.Props.Unhurried
import Verif.Lemmas.DrainAll
import Verif.Lemmas.Sound
import Verif.Props.Waiting
import Verif.Props.Once
import Verif.Lemmas.Credit
import Verif.Props.Credit
import Verif.Props.Answer
import Verif.Props.Holders
import Verif.Props.OneVote
import Verif.Props.Asked
import Verif.Props.SelfVote
import Verif.Props.Conserve
import Verif.Props.FreshStart
import Verif.Props.Crowd
import Verif.Props.Records
import Verif.Props.JoinRound
import Verif.Model.RingVote
import Verif.Props.RingVote
import Verif.Props.Seat
import Verif.Lemmas.DrainTight
import Verif.Props.Cost
import Verif.Props.Grant
import Verif.Props.Choice
import Verif.Props.MapWrites
import Verif.Props.SettleSoon
import Verif.Props.Order
import Verif.Props.Independent
import Verif.Props.OrderSys
import Verif.Props.Histories
import Verif.Props.ConserveAll
import Verif.Props.AskedAll
import Verif.Props.OwnAll
import Verif.Props.TwoHolders
