/-
Model of /repo/util/Util.go: conversions, list lookups, ElGamal-style signatures and
encryption.
-/
import Verif.Model.Suite

namespace ZRep

variable {P Q : ℕ}

/-! ### integers and bytes -/

/-- /repo/util/Util.go:309-313 `IntToByte`: `uint32(n)` truncates modulo 2^32 (Go int is
64 bit), then 4 bytes big-endian. -/
def intToByte (n : Int) : Bytes :=
  let u : Nat := (n % 2 ^ 32).toNat
  [UInt8.ofNat (u / 2 ^ 24), UInt8.ofNat (u / 2 ^ 16), UInt8.ofNat (u / 2 ^ 8), UInt8.ofNat u]

/-- /repo/util/Util.go:303-307 `ByteToInt`: reads the first four bytes, panics on fewer. -/
def byteToInt (b : Bytes) : Option Int :=
  match b with
  | b0 :: b1 :: b2 :: b3 :: _ =>
    some ((b0.toNat * 2 ^ 24 + b1.toNat * 2 ^ 16 + b2.toNat * 2 ^ 8 + b3.toNat : Nat) : Int)
  | _ => none

/-- /repo/util/Util.go:316-318 `SecretToBigInt` (also pedersen_fujiokam/equality.go:23-25). -/
def secretToBigInt (s : ZMod Q) : Int := (s.val : Int)

/-- /repo/util/Util.go:321-326 `BigIntToSecret` (also pedersen_fujiokam/equality.go:28-33):
the value is reduced modulo Q (Euclidean). -/
def bigIntToSecret (Q : ℕ) (i : Int) : ZMod Q := ((i % (Q : Int)).toNat : ZMod Q)

/-- /repo/util/Util.go:329-333 `PointToBigInt`. -/
def pointToBigInt (p : ZMod P) : Int := (bytesToNat (encodePoint p) : Int)

/-- /repo/util/Util.go:336-340 `BigIntToPoint`: the decoding error is ignored, the number
set by `SetBytes` stays in the point whether valid or not. Simplification: the returned
number is taken modulo P (a number ≥ P would be kept unreduced, every later operation
reduces it). -/
def bigIntToPoint (P : ℕ) (i : Int) : ZMod P := (bytesToNat (natToBytes i.natAbs) : ZMod P)

/-! ### list lookups -/

/-- /repo/util/Util.go:353-360 `FindIndexWithinKeyList`, loop from index `i`. -/
def findIndexFrom (nym : ZMod P) : List (ZMod P) → Int → Int
  | [], _ => -1
  | k :: ks, i => if nym = k then i else findIndexFrom nym ks (i + 1)

/-- /repo/util/Util.go:353-360 `FindIndexWithinKeyList`. -/
def findIndexWithinKeyList (keyList : List (ZMod P)) (nym : ZMod P) : Int :=
  findIndexFrom nym keyList 0

/-- /repo/util/Util.go:362-370 `FindIntUsingKeyList`, loop from index `i`;
`none` is the index-out-of-range panic when `diffList` is too short. -/
def findIntFrom (nym : ZMod P) (diffList : List Int) : List (ZMod P) → Nat → Option Int
  | [], _ => some 0
  | k :: ks, i => if nym = k then diffList[i]? else findIntFrom nym diffList ks (i + 1)

/-- /repo/util/Util.go:362-370 `FindIntUsingKeyList`. -/
def findIntUsingKeyList (keyList : List (ZMod P)) (diffList : List Int) (nym : ZMod P) : Option Int :=
  findIntFrom nym diffList keyList 0

/-- Result of `FindCommUsingKeyList` (/repo/util/Util.go:342-351): Go returns `(nil, nil)` when absent. -/
def findCommFrom (nym : ZMod P) (valList : List (ZMod P)) (eList : List (ZMod Q)) :
    List (ZMod P) → Nat → Option (Option (ZMod P × ZMod Q))
  | [], _ => some none
  | k :: ks, i =>
    if nym = k then do
      let v ← valList[i]?
      let e ← eList[i]?
      some (some (v, e))
    else findCommFrom nym valList eList ks (i + 1)

/-- /repo/util/Util.go:342-349 `FindCommUsingKeyList`. -/
def findCommUsingKeyList (keyList valList : List (ZMod P)) (eList : List (ZMod Q)) (nym : ZMod P) :
    Option (Option (ZMod P × ZMod Q)) := findCommFrom nym valList eList keyList 0

/-! ### signatures -/

/-- /repo/util/Util.go:381-386 `hashElGamal`. -/
def hashElGamal (S : Suite P Q) (message : Bytes) (p : ZMod P) : ZMod Q :=
  S.pick (encodePoint p) message

/-- `abstract.Write(&buf, &basicSig{c, r}, suite)`, util/Util.go:409-412: the two
fixed-width secrets one after the other. -/
def writeSig (c r : ZMod Q) : Bytes := encodeSecret c ++ encodeSecret r

/-- `abstract.Read(buf, &sig, suite)`, util/Util.go:419-423; trailing bytes are not looked at. -/
def readSig (b : Bytes) : Option (ZMod Q × ZMod Q) := do
  let c ← decodeSecret (Q := Q) (b.take (byteLen Q))
  let r ← decodeSecret (Q := Q) ((b.drop (byteLen Q)).take (byteLen Q))
  some (c, r)

/-- /repo/util/Util.go:392-413 `ElGamalSign`; `v` is the secret picked from the `random`
stream, `g = none` is a nil base. -/
def elGamalSign (S : Suite P Q) (v : ZMod Q) (message : Bytes) (privateKey : ZMod Q)
    (g : Option (ZMod P)) : Bytes :=
  let T := S.mul g v
  let c := hashElGamal S message T
  let r := v - privateKey * c
  writeSig c r

/-- /repo/util/Util.go:415-441 `ElGamalVerify`: `true` is a nil error. -/
def elGamalVerify (S : Suite P Q) (message : Bytes) (publicKey : ZMod P) (signature : Bytes)
    (g : Option (ZMod P)) : Bool :=
  match readSig (Q := Q) signature with
  | none => false
  | some (c, r) =>
    let T := pAdd (S.mul g r) (pw publicKey c)
    decide (hashElGamal S message T = c)

/-! ### encryption -/

/-- /repo/util/Util.go:444-456 `ElGamalEncrypt` with ephemeral secret `k`. -/
def elGamalEncrypt (S : Suite P Q) (pubkey M : ZMod P) (k : ZMod Q) : ZMod P × ZMod P :=
  let K := S.mul none k
  let s := pw pubkey k
  (K, pAdd s M)

/-- /repo/util/Util.go:458-465 `ElGamalDecrypt`. -/
def elGamalDecrypt (prikey : ZMod Q) (K C : ZMod P) : Option (ZMod P) :=
  pSub C (pw K prikey)

end ZRep
