/-
The suite (nist.NewAES128SHA256QR512 in the code): points are residues modulo the
prime P, secrets are integers modulo the prime Q. The residue group itself is modelled
on integers in Model/Residue.lean; Props/Suite.lean proves that the operations below
are exactly those.
-/
import Verif.Model.Residue
import Mathlib.Data.ZMod.Basic
import Mathlib.Algebra.Field.ZMod

namespace ZRep

/-- The part of the suite (nist.NewAES128SHA256QR512, /repo/cmd/coordinator/CoordinatorLauncher.go:45-60) that is not
fixed by the group: the base point, the
deterministic "cipher" used to turn a key and a message into a secret, and the hash.
All are arbitrary functions (dependency, not in /repo). -/
structure Suite (P Q : ℕ) where
  /-- `suite.Point().Base()` -/
  base : ZMod P
  /-- `c := suite.Cipher(key); c.Message(nil,nil,msg); suite.Secret().Pick(c)`,
  as used by /repo/util/Util.go:381-386 -/
  pick : Bytes → Bytes → ZMod Q
  /-- `suite.Secret().Pick(suite.Cipher([]byte("example")))`: the first secret drawn from the
  constant stream used by all callers of ElGamalSign (e.g.
  /repo/cmd/client/ClientLauncher.go:77, /repo/cmd/coordinator/Coordinator.go:134) -/
  exampleNonce : ZMod Q

/-- What is assumed of the suite's base point (dedis/crypto nist/residue.go:16-60): it generates a group of order `Q`. -/
structure Suite.WF {P Q : ℕ} (S : Suite P Q) : Prop where
  base_pow : S.base ^ Q = 1
  base_ne : S.base ≠ 1

section ops
variable {P Q : ℕ}

/-- `suite.Point()`: a freshly allocated point holds the number 0 (residue.go:16-19). -/
def freshPoint : ZMod P := 0

/-- `p.Add(a, b)`, residue.go:95-99. -/
def pAdd (a b : ZMod P) : ZMod P := a * b

/-- `p.Sub(a, b)`, residue.go:101-106; panics when `b` has no inverse. -/
def pSub (a b : ZMod P) : Option (ZMod P) := if b = 0 then none else some (a * b⁻¹)

/-- `p.Mul(b, s)` with non-nil `b`, residue.go:113-119. -/
def pw (b : ZMod P) (s : ZMod Q) : ZMod P := b ^ s.val

/-- `p.Mul(b, s)`, where a nil `b` means the base point, residue.go:113-116. -/
def Suite.mul (S : Suite P Q) (b : Option (ZMod P)) (s : ZMod Q) : ZMod P := pw (b.getD S.base) s

/-- `p.Valid()`, residue.go:45-48. -/
def validPoint (Q : ℕ) (p : ZMod P) : Prop := p ≠ 0 ∧ p ^ Q = 1

instance (p : ZMod P) : Decidable (validPoint Q p) := by unfold validPoint; infer_instance

/-- left padding with zero bytes to a fixed width (residue.go:126-131 and nist.Int). -/
def padTo (l : Nat) (b : Bytes) : Bytes := List.replicate (l - b.length) 0 ++ b

/-- width in bytes of numbers below `n` (residue.go:121-123, 156) -/
def byteLen (n : Nat) : Nat := (bitLen n + 7) / 8

/-- /repo/util/Util.go:210-214 `EncodePoint` (residue.go:125-131). -/
def encodePoint (p : ZMod P) : Bytes := padTo (byteLen P) (natToBytes p.val)

/-- /repo/util/Util.go:216-221 `DecodePoint`; `none` is CheckErr's panic (residue.go:133-139). -/
def decodePoint (Q : ℕ) (b : Bytes) : Option (ZMod P) :=
  let v := bytesToNat b
  if v < P ∧ validPoint Q ((v : ℕ) : ZMod P) then some (v : ZMod P) else none

/-- /repo/util/Util.go:223-227 `EncodeSecret` (nist.Int: fixed width big-endian). -/
def encodeSecret (s : ZMod Q) : Bytes := padTo (byteLen Q) (natToBytes s.val)

/-- /repo/util/Util.go:229-234 `DecodeSecret`; nist.Int rejects a wrong length or a value ≥ Q. -/
def decodeSecret (b : Bytes) : Option (ZMod Q) :=
  if b.length = byteLen Q ∧ bytesToNat b < Q then some (bytesToNat b : ZMod Q) else none

end ops
end ZRep
