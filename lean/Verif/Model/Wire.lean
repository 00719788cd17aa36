/-
Messages as bytes: which parameters a sender puts into an event, under which names and with which types, and what the handlers
of coordinator, servers and clients read from it (/repo/cmd/coordinator/CoordinatorHandler.go, /repo/cmd/server/AnonServerHandler.go,
/repo/cmd/client/ClientHandler.go and the three launchers). Then the whole system with bytes instead of messages on the network.

Simplifications: all reads of a handler are made before its other work: a handler that panics later panics anyway, and what it has done
before is lost with the process. (Only for events that none of these processes sends this is a difference: a handler may return before
it comes to a parameter that is missing.) An address that cannot be resolved is a panic, also where the code ignores the error
(AnonServerHandler.go:410).
-/
import Verif.Model.Gob
import Verif.Model.Protobuf
import Verif.Model.ShuffleBytes
import Verif.Model.System

namespace ZRep

variable {P Q : ℕ}

/-- The names of parameters are ASCII (/repo/proto/Event.go:7). -/
def key (s : String) : Bytes := s.toList.map fun c => UInt8.ofNat c.toNat

/-- `net.TCPAddr` from a number and a port (/repo/util/Util.go:61-62) -/
def Addr.tcp (a : Addr) : TCPAddr4 :=
  ⟨a.ip / 2 ^ 24, a.ip / 2 ^ 16 % 256, a.ip / 2 ^ 8 % 256, a.ip % 256, a.port⟩

/-- the number and the port of a `net.TCPAddr` (/repo/util/Util.go:76-78) -/
def TCPAddr4.addr (x : TCPAddr4) : Addr := ⟨x.a * 2 ^ 24 + x.b * 2 ^ 16 + x.c * 2 ^ 8 + x.d, x.port⟩

/-- what an IPv4 address and a port can be (/repo/util/Util.go:61) -/
def Addr.Ok (a : Addr) : Prop := a.ip < 2 ^ 32 ∧ a.port < 2 ^ 16

instance Addr.decidableOk (a : Addr) : Decidable a.Ok := by unfold Addr.Ok; infer_instance

/-- What receivers accept as the types of an event, of a list of numbers and of a list of integers (/repo/util/Util.go:72-79,
145-155, 246-255), and how the proof of a shuffle is written and read (AnonServerHandler.go:141, 305 and 73). -/
structure Wire where
  acceptsEvent : List (ℕ × Bytes) → ℕ → Bool
  acceptsBigs : List (ℕ × Bytes) → ℕ → Bool
  acceptsInts : List (ℕ × Bytes) → ℕ → Bool

/-- How a sender describes these types (/repo/util/Util.go:54-59, 135-143, 236-244). -/
structure WireTypes where
  event : GobType
  bigs : GobType
  ints : GobType

/-- descriptions a receiver accepts (Util.go:72-79, 145-155, 246-255) -/
def WireTypes.Known (ts : WireTypes) (w : Wire) : Prop :=
  w.acceptsEvent ts.event.descs ts.event.id = true ∧ w.acceptsBigs ts.bigs.descs ts.bigs.id = true ∧
  w.acceptsInts ts.ints.descs ts.ints.id = true

/-! ### senders -/

/-- a parameter with bytes (Event.go:7) -/
def par (s : String) (b : Bytes) : Bytes × GVal := (key s, .bytes b)

/-- the public Fujisaki-Okamoto parameters (CoordinatorHandler.go:159-166, 234-244) -/
def writeFO (fo : FOBase) : List (Bytes × GVal) :=
  [ par "n" (natToBytes fo.N), par "g1" (fToBinary fo.G1), par "g2" (fToBinary fo.G2), par "g3" (fToBinary fo.G3),
    par "g4" (fToBinary fo.G4), par "g5" (fToBinary fo.G5), par "g6" (fToBinary fo.G6), par "h1" (fToBinary fo.H1) ]

/-- The parameters of a table: from the coordinator (CoordinatorLauncher.go:130-135, 174-180), from a server that has not shuffled
(AnonServerHandler.go:118-123, 284-290) and from one that has (AnonServerHandler.go:156-168, 320-333). -/
def writeTable (t : TableMsg P Q) : List (Bytes × GVal) :=
  [par "keys" (pbEncodePoints t.keys), par "vals" (pbEncodePoints t.vals), par "GT" (encodePoint t.GT), par "HT" (encodePoint t.HT)]
  ++ (match t.g with
      | some g => [par "g" (encodePoint g)]
      | none => [])
  ++ (if t.isStart then [(key "is_start", .bool true)] else [])
  ++ (match t.shuffled with
      | some i =>
        [ par "xbar" (pbEncodePoints i.xbar), par "ybar" (pbEncodePoints i.ybar), par "proof" (Shuffle.proofBytes i.prevKeys.length i.proof),
          par "prev_keys" (pbEncodePoints i.prevKeys), par "prev_vals" (pbEncodePoints i.prevVals),
          (key "shuffled", .bool true), par "public_key" (encodePoint i.publicKey) ]
      | none => [])

/-- The type of the event (/repo/proto/EventType.go) and its parameters, as the senders put them together; `none`: encoding fails, or there is
no such event. The places are given with each message. -/
def writeMsg (ts : WireTypes) : Msg P Q → Option (Int × List (Bytes × GVal))
  -- ServerLauncher.go:30-33
  | .serverRegister pk => some (1, [par "public_key" (encodePoint pk)])
  -- CoordinatorHandler.go:155-168
  | .serverRegisterReply reply prev h fo =>
    some (2, [(key "reply", .bool reply)] ++ (match prev with
      | some a => [(key "prev_server", .str a.tcp.text)]
      | none => []) ++ [par "h" (encodePoint h)] ++ writeFO fo)
  -- CoordinatorHandler.go:140-144
  | .updateNextHop a => some (3, [(key "reply", .bool true), (key "next_hop", .str a.tcp.text)])
  -- ClientLauncher.go:38-41
  | .clientRegisterController pk => some (4, [par "public_key" (encodePoint pk)])
  -- CoordinatorHandler.go:195-200, AnonServerHandler.go:222-227
  | .clientRegisterServer pk a pcomm =>
    some (5, [par "public_key" (encodePoint pk), (key "addr", .str a.tcp.text), par "pcomm" (encodePoint pcomm)])
  -- CoordinatorHandler.go:234-247
  | .clientRegisterConfirmation fo prf pk => do
    let b ← encodeBigIntList ts.bigs prf
    some (6, writeFO fo ++ [par "honesty_prf" b, par "public_key" (encodePoint pk)])
  -- CoordinatorLauncher.go:130-136, AnonServerHandler.go:284-291, 320-334
  | .announcement t => some (8, writeTable t)
  -- CoordinatorHandler.go:106-113
  | .announcementFinalize f =>
    some (25, [par "g" (encodePoint f.g), par "keys" (pbEncodePoints f.keys), par "vals" (pbEncodePoints f.vals),
      par "GT" (encodePoint f.GT), par "HT" (encodePoint f.HT)])
  -- ClientLauncher.go:219-232
  | .vote v =>
    some (11, [par "nym" v.nym, par "assignment" v.assignment, par "signatures" v.signatures, (key "feedback", .int v.feedback),
      par "signature" v.signature])
  -- CoordinatorLauncher.go:205-206
  | .votePhase => some (11, [])
  -- CoordinatorLauncher.go:174-181, AnonServerHandler.go:118-124, 156-169
  | .roundEnd t => some (12, writeTable t)
  -- CoordinatorHandler.go:633-637
  | .roundEndClient keys diffs => do
    let b ← encodeIntArray ts.ints diffs
    some (12, [par "keys" (pbEncodePoints keys), par "diffs" b])
  -- sent by no code that is called (CoordinatorHandler.go:574-596)
  | .voteReply reply => some (13, [(key "reply", .bool reply)])
  -- CoordinatorLauncher.go:88-91
  | .bcastPedersenH h => some (15, [par "h" (encodePoint h)])
  -- ClientHandler.go:89-92
  | .honestyChallenge chal => some (16, [par "honesty_chal" (pbEncodeBools chal)])
  -- CoordinatorHandler.go:260-263
  | .honestyAnswer ans => do
    let b ← encodeBigIntList ts.bigs ans
    some (17, [par "honesty_ans" b])
  -- AnonServerHandler.go:438-442
  | .updatePedersenH h => some (18, [par "h" (encodePoint h)])
  -- CoordinatorLauncher.go:185-189
  | .bcastPedersenRDiff keys rDiffs => some (19, [par "keys" (pbEncodePoints keys), par "rDiffs" (pbEncodeSecrets rDiffs)])
  -- CoordinatorHandler.go:204-208
  | .initPedersenR r g => some (20, [par "r" (encodeSecret r), par "g" (encodePoint g)])
  -- ClientLauncher.go:70-83
  | .postBridge p => some (21, [(key "bridge_addr", .str p.bridgeAddr), par "nym" p.nym, par "signature" p.signature])
  -- ClientLauncher.go:125-144
  | .requestBridges p =>
    some (22, [(key "ind", .int p.ind), par "nym" p.nym, par "signature" p.signature, par "FOCommd" p.foCommd, par "PCommd" p.pCommd,
      par "PCommind" p.pCommind, par "rind" p.rind, par "arg_nonneg" p.argNonneg, par "arg_equal" p.argEqual])
  -- CoordinatorHandler.go:346-357
  | .signAssignments r =>
    some (23, [par "assignments" r.assignments, (key "ind", .int r.req.ind), par "nym" r.req.nym, par "FOCommd" r.req.foCommd,
      par "PCommd" r.req.pCommd, par "PCommind" r.req.pCommind, par "rind" r.req.rind, par "arg_nonneg" r.req.argNonneg,
      par "arg_equal" r.req.argEqual])
  -- AnonServerHandler.go:375-378, 395-400
  | .gotSigns r =>
    if r.success then
      some (24, [(key "success", .bool true), par "assignments" r.assignments, par "signatures" r.signatures])
    else some (24, [(key "success", .bool false)])
  -- CoordinatorHandler.go:397-406
  | .gotSignsClient r => some (24, [par "assignment" r.assignment, par "signatures" r.signatures, par "signature" r.signature])
  | .malformed => none
  | .unknown => none

/-- What the Go types of the parameters allow (Event.go:7 and the places at `writeMsg`): integers have 64 bits, addresses are IPv4
addresses; lists have less than 2^30 elements. -/
def Fits : Msg P Q → Prop
  | .serverRegisterReply _ prev _ _ => ∀ a ∈ prev, a.Ok
  | .updateNextHop a => a.Ok
  | .clientRegisterServer _ a _ => a.Ok
  | .clientRegisterConfirmation _ prf _ => prf.length < 2 ^ 30
  | .vote v => Int64Range v.feedback
  | .roundEndClient _ diffs => diffs.length < 2 ^ 30 ∧ ∀ d ∈ diffs, Int64Range d
  | .honestyChallenge chal => chal.length < 2 ^ 30
  | .honestyAnswer ans => ans.length < 2 ^ 30
  | .requestBridges p => Int64Range p.ind
  | .signAssignments r => Int64Range r.req.ind
  | _ => True

/-- /repo/util/Util.go:61-70 `SendEvent`: `b` are bytes that a process at `src` may write to a connection for the message `m`. The
sender may describe the types in any way the receivers accept, and writes the parameters in any order (Util.go:54-59). -/
def Sends (w : Wire) (src : Addr) (m : Msg P Q) (b : Bytes) : Prop :=
  src.Ok ∧ Fits m ∧ ∃ ts : WireTypes, ts.Known w ∧ ∃ eventType params, writeMsg ts m = some (eventType, params) ∧
    ∃ params', params'.Perm params ∧ sendEventBytes ts.event src.tcp eventType (some params') = some b

/-! ### receivers -/

/-- the parameters of an event (Event.go:7) -/
abbrev Params := Bytes → Option GVal

/-- `params[s].([]byte)` (e.g. CoordinatorHandler.go:84); `none`: it panics -/
def Params.bytes (pm : Params) (s : String) : Option Bytes :=
  match pm (key s) with
  | some (.bytes b) => some b
  | _ => none

/-- `params[s].(string)` (e.g. CoordinatorHandler.go:229) -/
def Params.str (pm : Params) (s : String) : Option Bytes :=
  match pm (key s) with
  | some (.str b) => some b
  | _ => none

/-- `params[s].(int)` (e.g. CoordinatorHandler.go:295) -/
def Params.int (pm : Params) (s : String) : Option Int :=
  match pm (key s) with
  | some (.int i) => some i
  | _ => none

/-- `params[s].(bool)` (e.g. CoordinatorHandler.go:365) -/
def Params.bool (pm : Params) (s : String) : Option Bool :=
  match pm (key s) with
  | some (.bool b) => some b
  | _ => none

/-- `_, ok := params[s]` (e.g. AnonServerHandler.go:61) -/
def Params.has (pm : Params) (s : String) : Bool := (pm (key s)).isSome

/-- `UnmarshalBinary` whose error is ignored (CoordinatorHandler.go:134, 184, 217, AnonServerHandler.go:68, 258, ClientHandler.go:183).
Simplification: a number that is not below P. -/
def rawPoint (P : ℕ) (b : Bytes) : ZMod P := (bytesToNat b : ZMod P)

/-- a point that must be a group member (/repo/util/Util.go:216-221 `DecodePoint`) -/
def Params.point (P Q : ℕ) (pm : Params) (s : String) : Option (ZMod P) := (pm.bytes s).bind (decodePoint Q)

/-- a list of points (/repo/util/Util.go:265-278) -/
def Params.points (P Q : ℕ) (pm : Params) (s : String) : Option (List (ZMod P)) := (pm.bytes s).bind (pbDecodePoints P Q)

/-- an address (`net.ResolveTCPAddr("tcp", params[s].(string))`, e.g. CoordinatorHandler.go:229-231) -/
def Params.addr (pm : Params) (s : String) : Option Addr := ((pm.str s).bind resolveTCPAddr4).map TCPAddr4.addr

/-- a Fujisaki-Okamoto parameter (AnonServerHandler.go:420-426, ClientHandler.go:65-71) -/
def Params.fo1 (pm : Params) (s : String) : Option Int := (pm.bytes s).map fFromBinary

/-- the Fujisaki-Okamoto parameters (AnonServerHandler.go:418-426, ClientHandler.go:63-71) -/
def Params.fo (pm : Params) : Option FOBase := do
  let n ← pm.bytes "n"
  let g1 ← pm.fo1 "g1"
  let g2 ← pm.fo1 "g2"
  let g3 ← pm.fo1 "g3"
  let g4 ← pm.fo1 "g4"
  let g5 ← pm.fo1 "g5"
  let g6 ← pm.fo1 "g6"
  let h1 ← pm.fo1 "h1"
  some { N := bytesToNat n, G1 := g1, G2 := g2, G3 := g3, G4 := g4, G5 := g5, G6 := g6, H1 := h1 }

/-- what a handler makes of its parameters; a type assertion or a decoding that fails ends the process (CoordinatorHandler.go:25-71) -/
def orMalformed (o : Option (Msg P Q)) : Msg P Q := o.getD .malformed

/-- What the coordinator's handlers read: CoordinatorHandler.go:25-71 and the handlers called there. -/
def coordRead (_w : Wire) (eventType : Int) (pm : Params) : Msg P Q :=
  -- CoordinatorHandler.go:131-134
  if eventType = 1 then orMalformed (do
    let pk ← pm.bytes "public_key"
    some (.serverRegister (rawPoint P pk)))
  -- CoordinatorHandler.go:175
  else if eventType = 18 then orMalformed (do
    let h ← pm.point P Q "h"
    some (.updatePedersenH h))
  -- CoordinatorHandler.go:184
  else if eventType = 4 then orMalformed (do
    let pk ← pm.bytes "public_key"
    some (.clientRegisterController (rawPoint P pk)))
  -- CoordinatorHandler.go:215-231
  else if eventType = 5 then orMalformed (do
    let nym ← pm.bytes "public_key"
    let pcomm ← pm.point P Q "pcomm"
    let addr ← pm.addr "addr"
    some (.clientRegisterServer (rawPoint P nym) addr pcomm))
  -- CoordinatorHandler.go:255
  else if eventType = 16 then orMalformed (do
    let b ← pm.bytes "honesty_chal"
    let chal ← pbDecodeBools b
    some (.honestyChallenge chal))
  -- CoordinatorHandler.go:269-274
  else if eventType = 21 then orMalformed (do
    let bridgeAddr ← pm.str "bridge_addr"
    let sig ← pm.bytes "signature"
    let nym ← pm.bytes "nym"
    some (.postBridge { bridgeAddr := bridgeAddr, nym := nym, signature := sig }))
  -- CoordinatorHandler.go:295-306, 349-355, bridge.go:90-102
  else if eventType = 22 then orMalformed (do
    let ind ← pm.int "ind"
    let sig ← pm.bytes "signature"
    let nym ← pm.bytes "nym"
    let foCommd ← pm.bytes "FOCommd"
    let pCommd ← pm.bytes "PCommd"
    let pCommind ← pm.bytes "PCommind"
    let rind ← pm.bytes "rind"
    let argNonneg ← pm.bytes "arg_nonneg"
    let argEqual ← pm.bytes "arg_equal"
    some (.requestBridges { ind := ind, nym := nym, signature := sig, foCommd := foCommd, pCommd := pCommd, pCommind := pCommind,
                            rind := rind, argNonneg := argNonneg, argEqual := argEqual }))
  -- CoordinatorHandler.go:365-377
  else if eventType = 24 then orMalformed (do
    let success ← pm.bool "success"
    if success then do
      let assignments ← pm.bytes "assignments"
      let signatures ← pm.bytes "signatures"
      some (.gotSigns { success := true, assignments := assignments, signatures := signatures })
    else some (.gotSigns { success := false, assignments := [], signatures := [] }))
  -- CoordinatorHandler.go:497-542, bridge.go:117-125
  else if eventType = 11 then orMalformed (do
    let nym ← pm.bytes "nym"
    let sig ← pm.bytes "signature"
    let assignment ← pm.bytes "assignment"
    let signatures ← pm.bytes "signatures"
    let feedback ← pm.int "feedback"
    some (.vote { nym := nym, assignment := assignment, signatures := signatures, feedback := feedback, signature := sig }))
  -- CoordinatorHandler.go:605-616
  else if eventType = 12 then orMalformed (do
    let keys ← pm.points P Q "keys"
    let vals ← pm.points P Q "vals"
    let GT ← pm.point P Q "GT"
    let HT ← pm.point P Q "HT"
    some (.roundEnd { keys := keys, vals := vals, g := none, GT := GT, HT := HT, isStart := false, shuffled := none }))
  -- CoordinatorHandler.go:84-95
  else if eventType = 8 then orMalformed (do
    let g ← pm.point P Q "g"
    let GT ← pm.point P Q "GT"
    let HT ← pm.point P Q "HT"
    let keys ← pm.points P Q "keys"
    let vals ← pm.points P Q "vals"
    some (.announcement { keys := keys, vals := vals, g := some g, GT := GT, HT := HT, isStart := false, shuffled := none }))
  else .unknown

/-- AnonServerHandler.go:60-78: what `verifyNeffShuffle` reads. -/
def Params.shuffled (P Q : ℕ) (pm : Params) : Option (Option (ShuffleInfo P Q)) :=
  if pm.has "shuffled" then do
    let xbar ← pm.points P Q "xbar"
    let ybar ← pm.points P Q "ybar"
    let prevKeys ← pm.points P Q "prev_keys"
    let prevVals ← pm.points P Q "prev_vals"
    let pk ← pm.bytes "public_key"
    let prf ← pm.bytes "proof"
    some (some { xbar := xbar, ybar := ybar, prevKeys := prevKeys, prevVals := prevVals, publicKey := rawPoint P pk,
                 proof := Shuffle.readProof prevKeys.length prf })
  else some none

/-- What a server's handlers read: AnonServerHandler.go:22-58 and the handlers called there. -/
def serverRead (_w : Wire) (eventType : Int) (pm : Params) : Msg P Q :=
  -- AnonServerHandler.go:406-430
  if eventType = 2 then orMalformed (do
    let reply ← pm.bool "reply"
    let prev ← if pm.has "prev_server" then (pm.addr "prev_server").map some else some none
    let fo ← pm.fo
    let h ← pm.point P Q "h"
    some (.serverRegisterReply reply prev h fo))
  -- AnonServerHandler.go:242-264
  else if eventType = 8 then orMalformed (do
    let keys ← pm.points P Q "keys"
    let vals ← pm.points P Q "vals"
    let GT ← pm.point P Q "GT"
    let HT ← pm.point P Q "HT"
    if pm.has "g" then do
      let g ← pm.bytes "g"
      let sh ← pm.shuffled P Q
      some (.announcement { keys := keys, vals := vals, g := some (rawPoint P g), GT := GT, HT := HT, isStart := false, shuffled := sh })
    else
      some (.announcement { keys := keys, vals := vals, g := none, GT := GT, HT := HT, isStart := false, shuffled := none }))
  -- AnonServerHandler.go:340-350
  else if eventType = 25 then orMalformed (do
    let g ← pm.point P Q "g"
    let GT ← pm.point P Q "GT"
    let HT ← pm.point P Q "HT"
    let keys ← pm.points P Q "keys"
    let vals ← pm.points P Q "vals"
    some (.announcementFinalize { g := g, keys := keys, vals := vals, GT := GT, HT := HT }))
  -- AnonServerHandler.go:367-384, bridge.go:32-88
  else if eventType = 23 then orMalformed (do
    let nym ← pm.bytes "nym"
    let ind ← pm.int "ind"
    let foCommd ← pm.bytes "FOCommd"
    let pCommd ← pm.bytes "PCommd"
    let pCommind ← pm.bytes "PCommind"
    let rind ← pm.bytes "rind"
    let argNonneg ← pm.bytes "arg_nonneg"
    let argEqual ← pm.bytes "arg_equal"
    let assignments ← pm.bytes "assignments"
    some (.signAssignments { assignments := assignments
                             req := { ind := ind, nym := nym, signature := [], foCommd := foCommd, pCommd := pCommd,
                                      pCommind := pCommind, rind := rind, argNonneg := argNonneg, argEqual := argEqual } }))
  -- AnonServerHandler.go:235
  else if eventType = 3 then orMalformed (do
    let a ← pm.addr "next_hop"
    some (.updateNextHop a))
  -- AnonServerHandler.go:215-226
  else if eventType = 5 then orMalformed (do
    let pk ← pm.point P Q "public_key"
    let a ← pm.addr "addr"
    let pcomm ← pm.bytes "pcomm"
    some (.clientRegisterServer pk a (rawPoint P pcomm)))
  -- AnonServerHandler.go:81-100
  else if eventType = 12 then orMalformed (do
    let keys ← pm.points P Q "keys"
    let vals ← pm.points P Q "vals"
    let sh ← if pm.has "is_start" then some none else pm.shuffled P Q
    let GT ← pm.point P Q "GT"
    let HT ← pm.point P Q "HT"
    some (.roundEnd { keys := keys, vals := vals, g := none, GT := GT, HT := HT, isStart := pm.has "is_start", shuffled := sh }))
  -- AnonServerHandler.go:178
  else if eventType = 15 then orMalformed (do
    let h ← pm.point P Q "h"
    some (.bcastPedersenH h))
  else .unknown

/-- What a client's handlers read: ClientHandler.go:14-56 and the handlers called there. -/
def clientRead (w : Wire) (eventType : Int) (pm : Params) : Msg P Q :=
  -- ClientHandler.go:63-76
  if eventType = 6 then orMalformed (do
    let fo ← pm.fo
    let b ← pm.bytes "honesty_prf"
    let prf ← decodeBigIntList w.acceptsBigs b
    let pk ← pm.point P Q "public_key"
    some (.clientRegisterConfirmation fo prf pk))
  -- ClientHandler.go:97-98
  else if eventType = 20 then orMalformed (do
    let b ← pm.bytes "r"
    let r ← decodeSecret (Q := Q) b
    let g ← pm.point P Q "g"
    some (.initPedersenR r g))
  -- ClientHandler.go:105
  else if eventType = 17 then orMalformed (do
    let b ← pm.bytes "honesty_ans"
    let ans ← decodeBigIntList w.acceptsBigs b
    some (.honestyAnswer ans))
  -- ClientHandler.go:183-204
  else if eventType = 25 then orMalformed (do
    let g ← pm.bytes "g"
    let keys ← pm.points P Q "keys"
    let vals ← pm.points P Q "vals"
    let GT ← pm.point P Q "GT"
    let HT ← pm.point P Q "HT"
    some (.announcementFinalize { g := rawPoint P g, keys := keys, vals := vals, GT := GT, HT := HT }))
  -- ClientHandler.go:248-258, bridge.go:111-115
  else if eventType = 24 then orMalformed (do
    let sig ← pm.bytes "signature"
    let assignment ← pm.bytes "assignment"
    let signatures ← pm.bytes "signatures"
    some (.gotSignsClient { assignment := assignment, signatures := signatures, signature := sig }))
  -- ClientHandler.go:115-126: reads nothing
  else if eventType = 11 then .votePhase
  -- ClientHandler.go:132-133
  else if eventType = 12 then orMalformed (do
    let keys ← pm.points P Q "keys"
    let b ← pm.bytes "diffs"
    let diffs ← decodeIntArray w.acceptsInts b
    some (.roundEndClient keys diffs))
  -- ClientHandler.go:145-146
  else if eventType = 19 then orMalformed (do
    let keys ← pm.points P Q "keys"
    let b ← pm.bytes "rDiffs"
    let rDiffs ← pbDecodeSecrets Q b
    some (.bcastPedersenRDiff keys rDiffs))
  -- ClientHandler.go:158
  else if eventType = 13 then orMalformed (do
    let reply ← pm.bool "reply"
    some (.voteReply reply))
  else .unknown

/-- CoordinatorHandler.go:25-71 `Handle`, from the bytes of a connection. -/
def Coordinator.handleBytes (S : Suite P Q) (env : NetEnv P Q) (w : Wire) (k : Coordinator.Coins Q) (c : Coordinator P Q)
    (b : Bytes) : Option (Coordinator P Q × Out P Q) := do
  let (e, a) ← decodeEvent w.acceptsEvent b
  c.handle S env k a.addr (coordRead w e.eventType e.params)

/-- AnonServerHandler.go:22-58 `Handle`, from the bytes of a connection. -/
def Server.handleBytes [Fact P.Prime] [Fact Q.Prime] (S : Suite P Q) (env : NetEnv P Q) (w : Wire) (k : Server.Coins Q)
    (s : Server P Q) (b : Bytes) : Option (Server P Q × Out P Q) := do
  let (e, a) ← decodeEvent w.acceptsEvent b
  s.handle S env k a.addr (serverRead w e.eventType e.params)

/-- ClientHandler.go:14-56 `Handle`, from the bytes of a connection. -/
def Client.handleBytes (S : Suite P Q) (env : NetEnv P Q) (w : Wire) (chal : List Bool) (c : Client P Q) (b : Bytes) :
    Option (Client P Q × Out P Q) := do
  let (e, _) ← decodeEvent w.acceptsEvent b
  c.handle S env chal (clientRead w e.eventType e.params)

/-! ### the whole system -/

/-- A connection on its way (/repo/util/Util.go:61-70): who made it, to whom, and the bytes written to it. -/
structure WPacket where
  src : Addr
  dst : Addr
  bytes : Bytes

/-- All processes (/repo/cmd/main.go:11-29) and all connections on their way, oldest first. -/
structure WSys (P Q : ℕ) where
  coord : CoordProc P Q
  servers : List (Server P Q)
  clients : List (Client P Q)
  net : List WPacket

/-- `bs` are connections a process makes for the messages it sends (/repo/util/Util.go:61-70). -/
def WPosted (w : Wire) (src : Addr) (out : Out P Q) (bs : List WPacket) : Prop :=
  List.Forall₂ (fun o p => p.src = src ∧ p.dst = o.1 ∧ Sends w src o.2 p.bytes) out bs

/-- `p` is the next connection between its two ends (/repo/util/Util.go:61-70), as `Next` for messages. -/
def WNext (net : List WPacket) (p : WPacket) (rest : List WPacket) : Prop :=
  ∃ l₁ l₂, net = l₁ ++ p :: l₂ ∧ rest = l₁ ++ l₂ ∧ ∀ q ∈ l₁, ¬ (q.src = p.src ∧ q.dst = p.dst)

/-- One step of the system: CoordinatorLauncher.go:29-40, 233-291, ServerLauncher.go:41-56, 90-116, ClientLauncher.go:49-63, 294-345; as
`Sys.Step`, but the processes get the bytes of a connection. A message that cannot be encoded (`Fits`, gob's limit) ends the process. -/
inductive WSys.Step [Fact P.Prime] [Fact Q.Prime] (S : Suite P Q) (env : NetEnv P Q) (w : Wire) : WSys P Q → WSys P Q → Prop
  | main {s : WSys P Q} {e : CEvent P Q} {c' : CoordProc P Q} {out : Out P Q} {bs : List WPacket}
      (hm : e.isMain = true) (h : s.coord.step S env e = some (c', out)) (ho : WPosted w s.coord.c.localAddr out bs) :
      Step S env w s { s with coord := c', net := s.net ++ bs }
  | toCoord {s : WSys P Q} {p : WPacket} {rest : List WPacket} {k : Coordinator.Coins Q} {c' : Coordinator P Q} {out : Out P Q}
      {bs : List WPacket} (hp : WNext s.net p rest) (hd : p.dst = s.coord.c.localAddr)
      (h : s.coord.c.handleBytes S env w k p.bytes = some (c', out)) (ho : WPosted w s.coord.c.localAddr out bs) :
      Step S env w s { s with coord := { s.coord with c := c' }, net := rest ++ bs }
  | toServer {s : WSys P Q} {p : WPacket} {rest : List WPacket} {j : ℕ} {k : Server.Coins Q} {v v' : Server P Q} {out : Out P Q}
      {bs : List WPacket} (hp : WNext s.net p rest) (hj : s.servers[j]? = some v) (hd : p.dst = v.localAddr)
      (h : v.handleBytes S env w k p.bytes = some (v', out)) (ho : WPosted w v.localAddr out bs) :
      Step S env w s { s with servers := s.servers.set j v', net := rest ++ bs }
  | toClient {s : WSys P Q} {p : WPacket} {rest : List WPacket} {j : ℕ} {chal : List Bool} {v v' : Client P Q} {out : Out P Q}
      {bs : List WPacket} (hp : WNext s.net p rest) (hj : s.clients[j]? = some v) (hd : p.dst = v.localAddr)
      (h : v.handleBytes S env w chal p.bytes = some (v', out)) (ho : WPosted w v.localAddr out bs) :
      Step S env w s { s with clients := s.clients.set j v', net := rest ++ bs }
  | launchServer {s : WSys P Q} {addr : Addr} {a roundkey : ZMod Q} {bs : List WPacket}
      (hc : addr ≠ s.coord.c.localAddr) (hs : ∀ v ∈ s.servers, v.localAddr ≠ addr) (hcl : ∀ v ∈ s.clients, v.localAddr ≠ addr)
      (ho : WPosted w addr (initServer S addr s.coord.c.localAddr a roundkey).register bs) :
      Step S env w s { s with servers := s.servers ++ [initServer S addr s.coord.c.localAddr a roundkey], net := s.net ++ bs }
  | launchClient {s : WSys P Q} {addr : Addr} {a x : ZMod Q} {bs : List WPacket}
      (hc : addr ≠ s.coord.c.localAddr) (hs : ∀ v ∈ s.servers, v.localAddr ≠ addr) (hcl : ∀ v ∈ s.clients, v.localAddr ≠ addr)
      (ho : WPosted w addr (initClient S addr s.coord.c.localAddr a x).register bs) :
      Step S env w s { s with clients := s.clients ++ [initClient S addr s.coord.c.localAddr a x], net := s.net ++ bs }
  | cmdPost {s : WSys P Q} {j : ℕ} {v : Client P Q} {addr : Bytes} {bs : List WPacket} (hj : s.clients[j]? = some v)
      (ho : WPosted w v.localAddr (v.postBridge S addr) bs) : Step S env w s { s with net := s.net ++ bs }
  | cmdRequest {s : WSys P Q} {j : ℕ} {v : Client P Q} {ind : Int} {k : RequestCoins Q} {out : Out P Q} {bs : List WPacket}
      (hj : s.clients[j]? = some v) (h : v.requestBridges S env ind k = some out) (ho : WPosted w v.localAddr out bs) :
      Step S env w s { s with net := s.net ++ bs }
  | cmdVote {s : WSys P Q} {j : ℕ} {v : Client P Q} {msgID feedback : Int} {out : Out P Q} {bs : List WPacket}
      (hj : s.clients[j]? = some v) (h : v.sendVote S env msgID feedback = some out) (ho : WPosted w v.localAddr out bs) :
      Step S env w s { s with net := s.net ++ bs }

/-- A run of the system (any interleaving of the processes of /repo/cmd/main.go:11-29). -/
inductive WSys.Run [Fact P.Prime] [Fact Q.Prime] (S : Suite P Q) (env : NetEnv P Q) (w : Wire) : WSys P Q → WSys P Q → Prop
  | nil (s : WSys P Q) : Run S env w s s
  | snoc {s t u : WSys P Q} (h : Run S env w s t) (h' : WSys.Step S env w t u) : Run S env w s u

/-- The system before anything else is launched (CoordinatorLauncher.go:45-98, 233-252). -/
def initWSys (S : Suite P Q) (localAddr : Addr) (a : ZMod Q) (fo : FOBase) (trapdoor : FOTrapdoor) (prfSecret : List Int) :
    WSys P Q :=
  { coord := initCoordProc S localAddr a fo trapdoor prfSecret, servers := [], clients := [], net := [] }

end ZRep
