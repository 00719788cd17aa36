/-
C110: the formats the processes really use meet what the model assumes of its codecs (`NetEnv`): there is an environment that writes and
reads like gob and protobuf do.
-/
import Verif.Lemmas.ToyNet
import Verif.Props.Gob
import Verif.Props.Protobuf
import Verif.Model.ShuffleBytes
import Verif.Props.Wire

namespace ZRep.Props

variable {P Q : ℕ}

/-- Bytes that fit into the memory of a computer (less than 2^64 of them). -/
def RealSize (b : Bytes) : Prop := b.length < 2 ^ 64

/-- `c` writes `a` as `enc` does, if the bytes have a real size and `a` is one that `dec` takes, and reads every byte string of a real
size as `dec` does. -/
def Codec.Agrees {α : Type} (c : Codec α) (enc : α → Option Bytes) (dec : Bytes → Option α) (takes : α → Prop) : Prop :=
  (∀ a b, enc a = some b → RealSize b → takes a → c.enc a = b) ∧ ∀ b, RealSize b → c.dec b = dec b

open Classical in
/-- A codec for everything from a format for what has a real size: the rest is written behind so many zeros that it has no real size. -/
noncomputable def completeCodec {α : Type} (c : Codec α) (L : ℕ) (enc : α → Option Bytes) (dec : Bytes → Option α) (takes : α → Prop)
    (h : ∀ a b, enc a = some b → takes a → dec b = some a) : Codec α where
  enc a := if takes a ∧ ∃ b, enc a = some b ∧ b.length < L then (enc a).getD [] else List.replicate L 0 ++ c.enc a
  dec b := if b.length < L then dec b else c.dec (b.drop L)
  dec_enc := by
    intro a
    by_cases hg : takes a ∧ ∃ b, enc a = some b ∧ b.length < L
    · rw [if_pos hg]
      obtain ⟨ht, b, hb, hl⟩ := hg
      rw [hb, Option.getD_some, if_pos hl]
      exact h a b hb ht
    · rw [if_neg hg, if_neg (by simp), List.drop_left' (List.length_replicate ..)]
      exact c.dec_enc a

theorem completeCodec_agrees {α : Type} (c : Codec α) (L : ℕ) (hL : L = 2 ^ 64) (enc : α → Option Bytes) (dec : Bytes → Option α)
    (takes : α → Prop) (h : ∀ a b, enc a = some b → takes a → dec b = some a) :
    Codec.Agrees (completeCodec c L enc dec takes h) enc dec takes := by
  have hr : ∀ b, RealSize b → b.length < L := by intro b hb; rw [hL]; exact hb
  refine ⟨fun a b hb hl ht => ?_, fun b hb => if_pos (hr b hb)⟩
  have : takes a ∧ ∃ b, enc a = some b ∧ b.length < L := ⟨ht, b, hb, hr b hl⟩
  simp only [completeCodec]
  rw [if_pos this, hb, Option.getD_some]

theorem asgDecToy_valid {b : Bytes} {a : Assignment P} (h : asgDecToy Q b = some a) : validPoint Q a.nymR ∧ validPoint Q a.nym := by
  unfold asgDecToy at h
  split at h
  · split at h
    · rename_i hv
      cases h; exact hv
    · cases h
  · cases h

theorem asgDecToy_enc [NeZero P] (a : Assignment P) (h1 : validPoint Q a.nymR) (h2 : validPoint Q a.nym) :
    asgDecToy Q (asgEncToy a) = some a := by
  unfold asgDecToy asgEncToy
  rw [arrDec_arrEnc]
  simp only [bytesToNat_natToBytes, ZMod.natCast_zmod_val]
  rw [if_pos ⟨h1, h2⟩]

/-- an assignment is longer than its parts -/
theorem pbEncodeAssignment_long [NeZero P] (a : Assignment P) :
    byteLen P ≤ (pbEncodeAssignment a).length ∧ a.addr.length ≤ (pbEncodeAssignment a).length := by
  unfold pbEncodeAssignment pbField
  simp only [List.length_append, encodePoint_length]
  omega

/-- what gob is told of the types that are sent inside of an event, and what the readers accept -/
structure InnerTypes where
  list : GobType
  nonneg : GobType
  equal : GobType
  acceptsList : List (ℕ × Bytes) → ℕ → Bool
  acceptsNonneg : List (ℕ × Bytes) → ℕ → Bool
  acceptsEqual : List (ℕ × Bytes) → ℕ → Bool
  list_known : acceptsList list.descs list.id = true
  nonneg_known : acceptsNonneg nonneg.descs nonneg.id = true
  equal_known : acceptsEqual equal.descs equal.id = true

/-- An environment that writes and reads what protobuf and gob write and read: assignments, lists of byte strings, and the two arguments of
a request; its challenges are those of `H`. -/
structure UsesRealFormats (ts : InnerTypes) (H : Shuffle.PubRand Q) (env : NetEnv P Q) : Prop where
  writes_assignments : ∀ a, RealSize (pbEncodeAssignment a) → env.asgEnc a = pbEncodeAssignment a
  reads_assignments : ∀ b, RealSize b → env.asgDec b = pbDecodeAssignment P Q b
  lists : Codec.Agrees env.arr2 (encode2DByteArray ts.list) (decode2DByteArray ts.acceptsList) (fun l => 24 * l.length ≤ 2 ^ 33)
  nonneg : Codec.Agrees env.nonnegCodec (encodeARGnonneg ts.nonneg) (decodeARGnonneg ts.acceptsNonneg) (fun _ => True)
  equal : Codec.Agrees env.equalCodec (encodeARGequal ts.equal) (decodeARGequal ts.acceptsEqual) (fun _ => True)
  challenges : ∀ k, env.oracle k = Shuffle.hashOracle H k

/-- C110: whatever types gob describes, whatever the hash functions, the square root, the challenges, and the treatment of points that are
missing are: the model has an environment that uses the formats of protobuf and gob. -/
theorem C110_formats_meet_the_assumptions [Fact P.Prime] [Fact Q.Prime] (ts : InnerTypes) (hash sha : Bytes → Bytes) (fsqrt : Int → Int)
    (H : Shuffle.PubRand Q) (missing : List (Option (ZMod P)) → Option (List (ZMod P))) :
    ∃ env : NetEnv P Q, UsesRealFormats ts H env ∧ env.hash = hash ∧ env.sha = sha ∧ env.fsqrt = fsqrt ∧
      ∀ l, none ∈ l → env.encPts l = missing l := by
  classical
  obtain ⟨L, hL⟩ : ∃ L : ℕ, L = 2 ^ 64 := ⟨_, rfl⟩
  have hr : ∀ b, RealSize b → b.length < L := by intro b hb; rw [hL]; exact hb
  refine ⟨{
    hash := hash
    sha := sha
    fsqrt := fsqrt
    nonnegCodec := completeCodec nonnegCod L (encodeARGnonneg ts.nonneg) (decodeARGnonneg ts.acceptsNonneg) (fun _ => True)
      fun a b hb _ => C107_nonneg_proofs ts.nonneg ts.acceptsNonneg ts.nonneg_known a b hb
    equalCodec := completeCodec equalCod L (encodeARGequal ts.equal) (decodeARGequal ts.acceptsEqual) (fun _ => True)
      fun a b hb _ => C107_equality_proofs ts.equal ts.acceptsEqual ts.equal_known a b hb
    arr2 := completeCodec arrCodec L (encode2DByteArray ts.list) (decode2DByteArray ts.acceptsList) (fun l => 24 * l.length ≤ 2 ^ 33)
      fun l b hb hl => C107_byte_lists ts.list ts.acceptsList ts.list_known l hl b hb
    asgEnc := fun a => if (pbEncodeAssignment a).length < L then pbEncodeAssignment a else List.replicate L 0 ++ asgEncToy a
    asgDec := fun b => if b.length < L then pbDecodeAssignment P Q b else asgDecToy Q (b.drop L)
    asg_dec_enc := ?_
    asg_dec_valid := ?_
    encPts := fun l => if none ∈ l then missing l else some (l.filterMap id)
    encPts_some := ?_
    oracle := Shuffle.hashOracle H }, ⟨?_, ?_, ?_, ?_, ?_, fun _ => rfl⟩, rfl, rfl, rfl, ?_⟩
  · intro a h1 h2
    by_cases hl : (pbEncodeAssignment a).length < L
    · have := pbEncodeAssignment_long a
      rw [if_pos hl, if_pos hl]
      exact C107_assignments (by rw [← hL]; omega) a h1 h2 (by rw [← hL]; omega)
    · rw [if_neg hl, if_neg (by simp), List.drop_left' (List.length_replicate ..)]
      exact asgDecToy_enc a h1 h2
  · intro b a h
    split at h
    · exact (C107_only_group_members b).2 a h
    · exact asgDecToy_valid h
  · intro l
    rw [if_neg (by simp), List.filterMap_map, Function.comp_def]
    simp
  · intro a ha; exact if_pos (hr _ ha)
  · intro b hb; exact if_pos (hr _ hb)
  · exact completeCodec_agrees _ L hL _ _ _ fun l b hb hl => C107_byte_lists ts.list ts.acceptsList ts.list_known l hl b hb
  · exact completeCodec_agrees _ L hL _ _ _ fun a b hb _ => C107_nonneg_proofs ts.nonneg ts.acceptsNonneg ts.nonneg_known a b hb
  · exact completeCodec_agrees _ L hL _ _ _ fun a b hb _ => C107_equality_proofs ts.equal ts.acceptsEqual ts.equal_known a b hb
  · intro l hl; exact if_pos hl

/-- C110: so what holds of the processes in the runs of the model, whatever the environment, holds in every run in which the processes send
and receive bytes, in an environment that uses the formats of protobuf and gob. -/
theorem C110_what_holds_in_the_model_holds_for_the_formats [Fact P.Prime] [Fact Q.Prime] (hP : byteLen P < 2 ^ 64) (hQ : byteLen Q < 2 ^ 64)
    (S : Suite P Q) (ts : InnerTypes) (hash sha : Bytes → Bytes) (fsqrt : Int → Int) (H : Shuffle.PubRand Q) (w : Wire) (ca : Addr)
    (a : ZMod Q) (fo : FOBase) (td : FOTrapdoor) (ps : List Int)
    (holds : NetEnv P Q → CoordProc P Q → List (Server P Q) → List (Client P Q) → Prop)
    (hh : ∀ (env : NetEnv P Q) es s, Sys.Run S env (initSys S ca a fo td ps) es s → holds env s.coord s.servers s.clients) :
    ∃ env : NetEnv P Q, UsesRealFormats ts H env ∧ env.hash = hash ∧ env.sha = sha ∧ env.fsqrt = fsqrt ∧
      ∀ t, WSys.Run S env w (initWSys S ca a fo td ps) t → holds env t.coord t.servers t.clients := by
  obtain ⟨env, hu, h1, h2, h3, -⟩ := C110_formats_meet_the_assumptions (P := P) ts hash sha fsqrt H (fun _ => none)
  exact ⟨env, hu, h1, h2, h3,
    C108_what_holds_for_messages_holds_for_bytes hP hQ S env H hu.challenges w ca a fo td ps (holds env) (hh env)⟩

/-- types as gob describes them: `[][]byte`, and two structures -/
def exampleInner : InnerTypes where
  list := { descs := [(68, [2, 1, 2, 255, 136, 0, 1, 10, 0, 0])], id := 68, small := by decide, id_small := by decide }
  nonneg := { descs := [(69, [3, 1])], id := 69, small := by decide, id_small := by decide }
  equal := { descs := [(70, [3, 1])], id := 70, small := by decide, id_small := by decide }
  acceptsList := fun _ id => id == 68
  acceptsNonneg := fun _ id => id == 69
  acceptsEqual := fun _ id => id == 70
  list_known := rfl
  nonneg_known := rfl
  equal_known := rfl

/-- In an environment with the real formats the list of two byte strings has exactly these bytes, and these bytes are read as this list. -/
example (H : Shuffle.PubRand 11) : ∃ env : NetEnv 23 11, UsesRealFormats exampleInner H env ∧
    env.arr2.enc [[1, 2], []] = [12, 255, 135, 2, 1, 2, 255, 136, 0, 1, 10, 0, 0, 8, 255, 136, 0, 2, 2, 1, 2, 0] ∧
    env.arr2.dec [12, 255, 135, 2, 1, 2, 255, 136, 0, 1, 10, 0, 0, 8, 255, 136, 0, 2, 2, 1, 2, 0] = some [[1, 2], []] := by
  obtain ⟨env, hu, -⟩ := C110_formats_meet_the_assumptions (P := 23) exampleInner id id id H (fun _ => none)
  refine ⟨env, hu, hu.lists.1 _ _ (by decide +kernel) (by unfold RealSize; decide) (by decide), ?_⟩
  rw [hu.lists.2 _ (by unfold RealSize; decide)]
  decide +kernel

end ZRep.Props
