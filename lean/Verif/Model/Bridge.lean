/-
Model of /repo/cmd/bridge/bridge.go: verification of a bridge request, and of the client
function that builds one (/repo/cmd/client/ClientLauncher.go:91-146).
-/
import Verif.Model.Equality
import Verif.Model.Message

namespace ZRep

variable {P Q : ℕ}

/-- A (de)serialiser from a dependency (encoding/gob, go.dedis.ch/protobuf; the pairs at
/repo/util/Util.go:38-52, 160-208): decoding may fail
(`none`: the callers panic or exit) and gives back what was encoded. -/
structure Codec (α : Type) where
  enc : α → Bytes
  dec : Bytes → Option α
  dec_enc : ∀ a, dec (enc a) = some a

/-- The hash functions and codecs used by the protocol (/repo/util/Util.go:160-208,
FujiOkamCommitment.go:461-468, equality.go:54-58; all arbitrary). -/
structure Env where
  /-- `suite.Hash()` -/
  hash : Bytes → Bytes
  /-- `sha256` -/
  sha : Bytes → Bytes
  /-- util/Util.go:160-179 -/
  nonnegCodec : Codec ArgNonneg
  /-- util/Util.go:185-204 -/
  equalCodec : Codec ArgEqual
  /-- `int64(math.Sqrt(float64(·)))` -/
  fsqrt : Int → Int

/-- /repo/cmd/bridge/bridge.go:19 `StartingCredit`. -/
def StartingCredit : Int := 5

/-- /repo/cmd/bridge/bridge.go:32-84 `VerifyInd`. `none`: a decoder panics or exits, or the
commitment is used although it is nil (`PCommr = none`, a map lookup that found nothing).
`SetInt64` reduces modulo Q. -/
def verifyInd (env : Env) (Q : ℕ) (p : RequestParams) (PCommr : Option (ZMod P)) (pb : PedersenBase P)
    (fb : FOBase) : Option Bool := do
  let _nymR ← decodePoint (P := P) Q p.nym
  let PCommind ← decodePoint (P := P) Q p.pCommind
  let PCommd ← decodePoint (P := P) Q p.pCommd
  let xind : ZMod Q := (p.ind : ZMod Q)
  let rind ← decodeSecret (Q := Q) p.rind
  let myPCommind := pb.commitWithR xind rind
  if myPCommind ≠ PCommind then return false
  let PCommr ← PCommr
  let myPCommd ← PedersenBase.sub PCommr PCommind
  if PCommd ≠ myPCommd then return false
  let FOCommd : Int := bytesToNat p.foCommd
  let argN ← env.nonnegCodec.dec p.argNonneg
  if fb.verifyNonneg env.sha FOCommd argN ≠ true then return false
  let argE ← env.equalCodec.dec p.argEqual
  if verifyEqual env.hash Q pb fb PCommd FOCommd argE ≠ true then return false
  return true

/-- The random values drawn by `requestBridges` (/repo/cmd/client/ClientLauncher.go:91-204). -/
structure RequestCoins (Q : ℕ) where
  rind : ZMod Q
  rFO : Int
  nonneg : NonnegCoins
  t1 : ZMod Q
  t2 : ZMod Q
  t3 : ZMod Q

/-- /repo/cmd/client/ClientLauncher.go:91-146 `requestBridges`: `some none` when the indicator
exceeds the reputation, `none` for a panic. The difference is taken in Go's 64-bit `int` (line 96).
Arguments: the client's reputation, randomness `R`, commitment, pseudonym, private key and base `G`. -/
def makeRequest (S : Suite P Q) (env : Env) (pb : PedersenBase P) (fb : FOBase)
    (reputation : Int) (R : ZMod Q) (PCommr : ZMod P) (nym : ZMod P) (priv : ZMod Q)
    (G : Option (ZMod P)) (ind : Int) (k : RequestCoins Q) : Option (Option RequestParams) := do
  if ind > reputation then return none
  let d := wrap64 (reputation - ind)
  let xD : ZMod Q := (d : ZMod Q)
  let xind : ZMod Q := (ind : ZMod Q)
  let PCommind := pb.commitWithR xind k.rind
  let PCommd ← PedersenBase.sub PCommr PCommind
  let FOCommd := fb.commitWithR d k.rFO
  let argN ← fb.proveNonneg env.sha env.fsqrt d FOCommd k.rFO k.nonneg
  let rd := R - k.rind
  let argE := proveEqual env.hash pb fb xD rd k.rFO k.t1 k.t2 k.t3
  let p : RequestParams :=
    { ind := ind, nym := encodePoint nym, signature := [], foCommd := fToBinary FOCommd,
      pCommd := encodePoint PCommd, pCommind := encodePoint PCommind, rind := encodeSecret k.rind,
      argNonneg := env.nonnegCodec.enc argN, argEqual := env.equalCodec.enc argE }
  return some { p with
    signature := elGamalSign S S.exampleNonce (messageOfRequestBridges p) priv G }

end ZRep
