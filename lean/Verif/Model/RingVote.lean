/-
The vote that is signed for the whole list of pseudonyms: /repo/cmd/client/ClientLauncher.go:236-262 `sendVote2`. No code calls it.
-/
import Verif.Model.RingBytes
import Verif.Model.Wire
import Verif.Model.Client

namespace ZRep

variable {P Q : ℕ}

/-- /repo/primitive/lrs/LinkableRingSignature.go:21-32 `CreateBase`. Simplification: the number in line 23 is taken to be the modulus of
the suite's group. -/
def createLRS (g : ZMod P) : LRSBase := ⟨P, pointToBigInt g⟩

/-- ClientLauncher.go:236-246: the text of a vote, the number of the message and the vote. -/
def voteText (msgID vote : Int) : Bytes := key (toString msgID ++ ";" ++ toString (if vote > 0 then 1 else -1 : Int))

/-- ClientLauncher.go:236-262 `sendVote2`: the addressee, the type of the event and its parameters; `none`: it panics (no base, or the
client's index is not in its list). `hash`: the suite's hash; `t`: how gob describes a signature; `sD`, `cD`, `r`: the draws of
LinkableRingSignature.go:121-138. -/
def Client.sendVote2 (hash : Bytes → Bytes) (t : GobType) (c : Client P Q) (msgID vote : Int) (sD cD : ℕ → Int) (r : Int) :
    Option (Addr × Int × List (Bytes × GVal)) := do
  let g ← c.G
  let pi ← (if c.index < 0 then none else some c.index.toNat)
  let sig ← (createLRS g).sign hash (intToByte msgID) c.allClientsPublicKeys.length pi c.privateKey c.allClientsPublicKeys sD cD r
  let byteSig ← encodeSignature t sig
  some (c.coordinatorAddr, 11, [(key "text", .str (voteText msgID vote)), par "nym" (encodePoint c.nym), par "signature" byteSig])

end ZRep
