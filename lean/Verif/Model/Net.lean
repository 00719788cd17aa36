/-
Network addresses, the messages exchanged by coordinator, servers and clients
(/repo/proto/EventType.go) and the codecs of the remaining dependencies.

A Go event is a type number and a `map[string]interface{}`. In the model every event type is a
constructor with one argument per parameter key. An event in which a parameter is missing or has the
wrong Go type is `Msg.malformed` (every handler starts by asserting the types of its parameters and
panics otherwise). Points and secrets that are sent as bytes but never signed are represented by the number
they encode; decoding them still checks membership where the code does (`recvPoint`).
-/
import Verif.Model.Bridge
import Verif.Model.Shuffle
import Verif.Model.LRS
import Verif.Model.GoMap

namespace ZRep

variable {P Q : ℕ}

/-- `net.TCPAddr`, e.g. /repo/cmd/coordinator/CoordinatorLauncher.go:45-80 (IPv4 as a number). `String` and `ResolveTCPAddr` are inverse to each other on
such addresses, so an address sent as a string is the address. -/
structure Addr where
  ip : ℕ
  port : ℕ
deriving DecidableEq, Repr

/-- /repo/cmd/bridge/bridge.go:26-30 `Assignment`. -/
structure Assignment (P : ℕ) where
  nymR : ZMod P
  addr : Bytes
  nym : ZMod P
deriving DecidableEq

/-- The remaining codecs and hashes used by the processes (/repo/util/Util.go:38-52, 257-301,
/repo/cmd/bridge/bridge.go:151-188). -/
structure NetEnv (P Q : ℕ) extends Env where
  /-- /repo/cmd/bridge/bridge.go:167-171 `EncodeAssignment` (protobuf). -/
  asgEnc : Assignment P → Bytes
  /-- /repo/cmd/bridge/bridge.go:173-188 `DecodeAssignment`; fails (panics) on malformed bytes and on
  numbers that are not group members. Simplification: a missing point is also a failure. -/
  asgDec : Bytes → Option (Assignment P)
  asg_dec_enc : ∀ a, validPoint Q a.nymR → validPoint Q a.nym → asgDec (asgEnc a) = some a
  asg_dec_valid : ∀ b a, asgDec b = some a → validPoint Q a.nymR ∧ validPoint Q a.nym
  /-- /repo/util/Util.go:38-52 `Encode2DByteArray`, `Decode2DByteArray` (gob) -/
  arr2 : Codec (List Bytes)
  /-- /repo/util/Util.go:257-263 `ProtobufEncodePointList` of a list that may contain nil points: what
  happens to a nil element is up to the protobuf library. -/
  encPts : List (Option (ZMod P)) → Option (List (ZMod P))
  encPts_some : ∀ l : List (ZMod P), encPts (l.map some) = some l
  /-- challenges of proof.HashProve / HashVerify (AnonServerHandler.go:73, 141, 305) for a given number of pairs, which decides how the
  messages they depend on are written -/
  oracle : ℕ → Shuffle.Oracle P Q

/-- /repo/cmd/bridge/bridge.go:151-157 `EncodeAssignmentList`. -/
def NetEnv.asgListEnc (env : NetEnv P Q) (l : List (Assignment P)) : Bytes :=
  env.arr2.enc (l.map env.asgEnc)

/-- /repo/cmd/bridge/bridge.go:159-165 `DecodeAssignmentList`. -/
def NetEnv.asgListDec (env : NetEnv P Q) (b : Bytes) : Option (List (Assignment P)) := do
  let raw ← env.arr2.dec b
  raw.mapM env.asgDec

/-- Receiving a point with `UnmarshalBinary` and CheckErr (e.g. util/Util.go:216-221). -/
def recvPoint (Q : ℕ) (p : ZMod P) : Option (ZMod P) := if validPoint Q p then some p else none

/-- /repo/util/Util.go:265-278 `ProtobufDecodePointList` on an encoded list of numbers. -/
def recvPoints (Q : ℕ) (l : List (ZMod P)) : Option (List (ZMod P)) :=
  if ∀ p ∈ l, validPoint Q p then some l else none

/-- Decoding of the Fujisaki-Okamoto parameters (AnonServerHandler.go:417-428, ClientHandler.go:62-72):
numbers travel as absolute values. -/
def recvFO (b : FOBase) : FOBase where
  N := b.N
  G1 := fFromBinary (fToBinary b.G1)
  G2 := fFromBinary (fToBinary b.G2)
  G3 := fFromBinary (fToBinary b.G3)
  G4 := fFromBinary (fToBinary b.G4)
  G5 := fFromBinary (fToBinary b.G5)
  G6 := fFromBinary (fToBinary b.G6)
  H1 := fFromBinary (fToBinary b.H1)

/-- The parameters only present in a shuffled table (AnonServerHandler.go:155-167, 320-333). -/
structure ShuffleInfo (P Q : ℕ) where
  xbar : List (ZMod P)
  ybar : List (ZMod P)
  prevKeys : List (ZMod P)
  prevVals : List (ZMod P)
  publicKey : ZMod P
  proof : Shuffle.PSProof P Q

/-- Parameters of ANNOUNCEMENT and ROUND_END between coordinator and servers (AnonServerHandler.go:155-167, 320-333;
CoordinatorLauncher.go:112-201). -/
structure TableMsg (P Q : ℕ) where
  keys : List (ZMod P)
  vals : List (ZMod P)
  g : Option (ZMod P)
  GT : ZMod P
  HT : ZMod P
  isStart : Bool
  shuffled : Option (ShuffleInfo P Q)

/-- Parameters of ANNOUNCEMENT_FINALIZE (CoordinatorHandler.go:103-109). -/
structure FinMsg (P : ℕ) where
  g : ZMod P
  keys : List (ZMod P)
  vals : List (ZMod P)
  GT : ZMod P
  HT : ZMod P

/-- Parameters of SIGN_ASSIGNMENTS (CoordinatorHandler.go:345-355): the assignments and the
requester's parameters (its signature is not forwarded). -/
structure SignReq where
  assignments : Bytes
  req : RequestParams

/-- Parameters of GOT_SIGNS sent by a server (AnonServerHandler.go:394-398); with `success = false`
the other two are absent. -/
structure SignReply where
  success : Bool
  assignments : Bytes
  signatures : Bytes

/-- /repo/proto/EventType.go. -/
inductive Msg (P Q : ℕ) where
  | serverRegister (publicKey : ZMod P)
  | serverRegisterReply (reply : Bool) (prevServer : Option Addr) (h : ZMod P) (fo : FOBase)
  | updateNextHop (nextHop : Addr)
  | clientRegisterController (publicKey : ZMod P)
  | clientRegisterServer (publicKey : ZMod P) (addr : Addr) (pcomm : ZMod P)
  | clientRegisterConfirmation (fo : FOBase) (honestyPrf : List Int) (publicKey : ZMod P)
  | announcement (t : TableMsg P Q)
  | announcementFinalize (f : FinMsg P)
  | vote (v : VoteParams)
  | votePhase
  | roundEnd (t : TableMsg P Q)
  | roundEndClient (keys : List (ZMod P)) (diffs : List Int)
  | voteReply (reply : Bool)
  | bcastPedersenH (h : ZMod P)
  | honestyChallenge (chal : List Bool)
  | honestyAnswer (ans : List Int)
  | updatePedersenH (h : ZMod P)
  | bcastPedersenRDiff (keys : List (ZMod P)) (rDiffs : List (ZMod Q))
  | initPedersenR (r : ZMod Q) (g : ZMod P)
  | postBridge (p : PostParams)
  | requestBridges (p : RequestParams)
  | signAssignments (r : SignReq)
  | gotSigns (r : SignReply)
  | gotSignsClient (r : GotSignsParams)
  /-- a known event type whose parameters are missing or ill-typed, bytes that are no event, or an event whose
  source address cannot be read (/repo/util/Util.go:72-79) -/
  | malformed
  /-- an event type no handler knows -/
  | unknown

/-- A message on its way: destination and content (/repo/util/Util.go:61-70). -/
abbrev Out (P Q : ℕ) := List (Addr × Msg P Q)

end ZRep
