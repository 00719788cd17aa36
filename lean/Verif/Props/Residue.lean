/-
Properties C01-C04: the residue group's encoding, membership test, arithmetic and
data embedding. `Spec.IsMember P Q v` says: 0 < v < P and v^Q ≡ 1 (mod P).
-/
import Verif.Lemmas.Residue

namespace ZRep.Props

open Spec ResidueGroup

/-- toy group used for the non-vacuity examples: the squares modulo 23 -/
def toy : ResidueGroup := ⟨23, 11, 4⟩
/-- a 40-bit group with room for embedded data -/
def toy40 : ResidueGroup := ⟨1048471983301, 61, 647070805106⟩

/-- C01: encoding never fails on a group member, has the fixed width, and decodes to the
same member; different members have different encodings. -/
theorem C01_point_wire_round_trip (g : ResidueGroup) (hP : 1 < g.P) (v : Int)
    (hv : IsMember g.P g.Q v) :
    ∃ b, g.marshal v = some b ∧ b.length = (bitLen g.P + 7) / 8 ∧ g.unmarshal b = some v ∧
      ∀ w, IsMember g.P g.Q w → g.marshal w = some b → w = v := by
  have h0 : 0 ≤ v := hv.1.le
  obtain ⟨hm, hl⟩ := g.marshal_eq h0 hv.2.1
  have hdec : ∀ u, IsMember g.P g.Q u → ∀ b, g.marshal u = some b → g.unmarshal b = some u := by
    intro u hu b hb
    obtain ⟨hm', _⟩ := g.marshal_eq hu.1.le hu.2.1
    rw [hm'] at hb
    simp only [Option.some.injEq] at hb
    subst hb
    unfold unmarshal
    rw [bytesToNat_pad, bytesToNat_natToBytes]
    have : ((u.natAbs : Nat) : Int) = u := by have := hu.1; omega
    rw [this]
    simp [(g.valid_iff hP u).2 hu]
  refine ⟨_, hm, ?_, hdec v hv _ hm, ?_⟩
  · rw [List.length_append, List.length_replicate]
    unfold pointLen at *
    omega
  · intro w hw hwb
    have h1 := hdec w hw _ hwb
    rw [hdec v hv _ hm] at h1
    exact (Option.some.inj h1).symm

example : IsMember toy.P toy.Q 8 ∧ toy.marshal 8 = some [8] ∧ toy.unmarshal [8] = some 8 := by
  refine ⟨⟨by decide, by decide, by decide⟩, by decide, by decide +kernel⟩

/-- C02: a byte string is accepted exactly if its big-endian value is a group member, and
then that value is the decoded point. -/
theorem C02_decode_accepts_exactly_members (g : ResidueGroup) (hP : 1 < g.P) (b : Bytes) (v : Int) :
    g.unmarshal b = some v ↔ v = (beValue b : Int) ∧ IsMember g.P g.Q (beValue b : Int) := by
  unfold unmarshal
  rw [beValue_eq, ← g.valid_iff hP]
  constructor
  · intro h
    dsimp only at h
    split at h
    · rename_i hv
      exact ⟨(Option.some.inj h).symm, hv⟩
    · simp at h
  · rintro ⟨rfl, hv⟩
    simp [hv]

/-- C02, false part ("one accepted encoding per point"): every accepted byte string stays
accepted, with the same meaning, after a zero byte is put in front. -/
theorem C02_not_canonical (g : ResidueGroup) (b : Bytes) :
    g.unmarshal (0 :: b) = g.unmarshal b := by
  unfold unmarshal
  rw [bytesToNat_cons]
  simp

example : toy.unmarshal [8] = some 8 ∧ toy.unmarshal [0, 8] = some 8 ∧
    toy.unmarshal [22] = none ∧ toy.unmarshal [31] = none := by decide +kernel

/-- C03 (refinement): on members, the operations compute the group operations modulo `P`,
return reduced representatives, never panic and stay inside the group. -/
theorem C03_ops_are_group_ops (g : ResidueGroup) (hP : 1 < g.P) (hQ : 0 < g.Q)
    (a b : Int) (ha : IsMember g.P g.Q a) (hb : IsMember g.P g.Q b) (s : Nat) (old : Int) :
    (IsMember g.P g.Q (g.add a b) ∧ g.add a b ≡ a * b [ZMOD g.P]) ∧
    (∃ c, g.sub a b = some c ∧ IsMember g.P g.Q c ∧ c * b ≡ a [ZMOD g.P]) ∧
    (IsMember g.P g.Q (g.neg old a) ∧ g.neg old a * a ≡ 1 [ZMOD g.P]) ∧
    (IsMember g.P g.Q (g.mul (some a) s) ∧ g.mul (some a) s ≡ a ^ s [ZMOD g.P]) ∧
    IsMember g.P g.Q null := by
  have ha' := (g.isMember_zmod.1 ha).2.2
  have hb' := (g.isMember_zmod.1 hb).2.2
  have ua := g.member_unit hQ ha
  have ub := g.member_unit hQ hb
  refine ⟨?_, ?_, ?_, ?_, ?_⟩
  · obtain ⟨h0, h1, h2⟩ := g.add_spec hP a b
    refine ⟨g.member_of_zmod hP hQ h0 h1 (by rw [h2, mul_pow, ha', hb', one_mul]), ?_⟩
    rw [← ZMod.intCast_eq_intCast_iff, h2]; push_cast; rfl
  · obtain ⟨c, hc, h0, h1, h2⟩ := g.sub_spec hP a b ub
    refine ⟨c, hc, g.member_of_zmod hP hQ h0 h1 ?_, ?_⟩
    · have := congrArg (· ^ g.Q) h2
      simp only [mul_pow, ha', hb', mul_one] at this
      exact this
    · rw [← ZMod.intCast_eq_intCast_iff]; push_cast; exact h2
  · obtain ⟨h0, h1, h2⟩ := g.neg_spec hP old a ua
    refine ⟨g.member_of_zmod hP hQ h0 h1 ?_, ?_⟩
    · have := congrArg (· ^ g.Q) h2
      simp only [mul_pow, ha', mul_one, one_pow] at this
      exact this
    · rw [← ZMod.intCast_eq_intCast_iff]; push_cast; exact h2
  · obtain ⟨h0, h1, h2⟩ := g.mul_spec hP (some a) s
    simp only [Option.getD_some] at h2
    refine ⟨g.member_of_zmod hP hQ h0 h1 ?_, ?_⟩
    · rw [h2, ← pow_mul, mul_comm, pow_mul, ha', one_pow]
    · rw [← ZMod.intCast_eq_intCast_iff, h2]; push_cast; rfl
  · exact g.member_of_zmod hP hQ (by simp [null]) (by simp [null]; omega) (by simp [null])

/-- C03 (laws the protocols rely on), as equalities of the computed numbers. -/
theorem C03_group_laws (g : ResidueGroup) (hP : 1 < g.P) (hQ : 0 < g.Q)
    (a b c : Int) (ha : IsMember g.P g.Q a) (hb : IsMember g.P g.Q b) (hc : IsMember g.P g.Q c)
    (s t : Nat) (old : Int) :
    g.add a b = g.add b a ∧ g.add (g.add a b) c = g.add a (g.add b c) ∧
    g.add a null = a ∧ g.sub (g.add a b) b = some a ∧
    g.sub a b = some (g.add a (g.neg old b)) ∧
    g.mul (some a) ((s + t) % g.Q) = g.add (g.mul (some a) s) (g.mul (some a) t) ∧
    g.mul (some (g.mul (some a) s)) t = g.mul (some a) (s * t % g.Q) ∧
    g.mul (some (g.add a b)) s = g.add (g.mul (some a) s) (g.mul (some b) s) ∧
    g.mul none s = g.mul (some g.base) s := by
  have ha' := (g.isMember_zmod.1 ha).2.2
  have hb' := (g.isMember_zmod.1 hb).2.2
  have hc' := (g.isMember_zmod.1 hc).2.2
  have ub := g.member_unit hQ hb
  have modpow : ∀ n, (a : ZMod g.P) ^ (n % g.Q) = (a : ZMod g.P) ^ n := by
    intro n
    conv_rhs => rw [← Nat.div_add_mod n g.Q, pow_add, pow_mul, ha', one_pow, one_mul]
  have A := g.add_spec hP
  have M := g.mul_spec hP
  refine ⟨?_, ?_, ?_, ?_, ?_, ?_, ?_, ?_, rfl⟩
  · refine int_eq_of_cast_eq (A _ _).1 (A _ _).2.1 (A _ _).1 (A _ _).2.1 ?_
    rw [(A _ _).2.2, (A _ _).2.2, mul_comm]
  · refine int_eq_of_cast_eq (A _ _).1 (A _ _).2.1 (A _ _).1 (A _ _).2.1 ?_
    rw [(A _ _).2.2, (A _ _).2.2, (A _ _).2.2, (A _ _).2.2, mul_assoc]
  · refine int_eq_of_cast_eq (A _ _).1 (A _ _).2.1 ha.1.le ha.2.1 ?_
    rw [(A _ _).2.2]; simp [null]
  · obtain ⟨x, hx, h0, h1, h2⟩ := g.sub_spec hP (g.add a b) b ub
    rw [hx, Option.some.injEq]
    refine int_eq_of_cast_eq h0 h1 ha.1.le ha.2.1 ?_
    rw [(A _ _).2.2] at h2
    exact ub.mul_right_cancel h2
  · obtain ⟨x, hx, h0, h1, h2⟩ := g.sub_spec hP a b ub
    rw [hx, Option.some.injEq]
    refine int_eq_of_cast_eq h0 h1 (A _ _).1 (A _ _).2.1 ?_
    apply ub.mul_right_cancel
    rw [h2, (A _ _).2.2, mul_assoc, (g.neg_spec hP old b ub).2.2, mul_one]
  · refine int_eq_of_cast_eq (M _ _).1 (M _ _).2.1 (A _ _).1 (A _ _).2.1 ?_
    rw [(A _ _).2.2, (M _ _).2.2, (M _ _).2.2, (M _ _).2.2, Option.getD_some, modpow, pow_add]
  · refine int_eq_of_cast_eq (M _ _).1 (M _ _).2.1 (M _ _).1 (M _ _).2.1 ?_
    rw [(M _ _).2.2, (M _ _).2.2, Option.getD_some, Option.getD_some, (M _ _).2.2,
      Option.getD_some, modpow, pow_mul]
  · refine int_eq_of_cast_eq (M _ _).1 (M _ _).2.1 (A _ _).1 (A _ _).2.1 ?_
    rw [(A _ _).2.2, (M _ _).2.2, (M _ _).2.2, (M _ _).2.2, Option.getD_some, (A _ _).2.2,
      Option.getD_some, Option.getD_some, mul_pow]

example : IsMember toy.P toy.Q 8 ∧ IsMember toy.P toy.Q 13 ∧ toy.add 8 13 = 12 ∧
    toy.sub 8 13 = some 13 ∧ toy.neg 0 8 = 3 ∧ toy.mul (some 8) 5 = 16 := by
  refine ⟨⟨by decide, by decide, by decide⟩, ⟨by decide, by decide, by decide⟩, ?_⟩
  decide +kernel

/-- C03, boundary: subtracting a number that is not invertible (for instance a point that
was never initialised, which is the number 0) panics. -/
theorem C03_sub_uninitialised_panics (g : ResidueGroup) (hP : 1 < g.P) (a : Int) :
    g.sub a 0 = none := by
  unfold sub modInverse
  have : ¬ (Int.gcd 0 (g.P : Int) = 1) := by simp; omega
  rw [if_neg this]; rfl

/-- C04: whatever random candidate `Pick` finally accepts, `Data` gives back exactly the
embedded prefix; `Pick` returns the rest; the prefix is as long as possible. The bound on the
size of `P` (2^19 bits) is what makes the two length bytes sufficient. -/
theorem C04_pick_data_round_trip (g : ResidueGroup) (hP : 1 < g.P) (hbits : bitLen g.P < 2 ^ 19)
    (data : Bytes) (stream : List Bytes) (hs : ∀ b ∈ stream, b.length = g.pointLen)
    (v : Int) (rest : Bytes) (h : g.pick data stream = some (some (v, rest))) :
    ∃ emb, data = emb ++ rest ∧ emb.length = min data.length ((bitLen g.P - 24) / 8) ∧
      g.data v = some (some emb) ∧ IsMember g.P g.Q v := by
  induction stream with
  | nil => simp [pick] at h
  | cons b t ih =>
    unfold pick at h
    rcases hb' : g.embed b data with _ | b'
    · rw [hb'] at h; simp at h
    rw [hb'] at h
    simp only [Option.bind_eq_bind, Option.bind_some] at h
    split at h
    swap
    · exact ih (fun x hx => hs x (List.mem_cons_of_mem _ hx)) h
    rename_i hval
    simp only [Option.some.injEq, Prod.mk.injEq] at h
    obtain ⟨rfl, rfl⟩ := h
    have hbl := hs b List.mem_cons_self
    unfold embed at hb'
    dsimp only at hb'
    split at hb'
    swap
    · simp at hb'
    rename_i hc
    obtain ⟨hdl0, hdl, -⟩ := hc
    obtain ⟨d, hd⟩ := Int.eq_ofNat_of_zero_le hdl0
    have hd' : (g.embedLen data).toNat = d := by omega
    rw [hd'] at hdl hb' ⊢
    simp only [Option.some.injEq] at hb'
    -- sizes
    have hdmin : d = min data.length ((bitLen g.P - 24) / 8) ∧ (d : Int) ≤ g.pickLen := by
      have hp := g.pickLen_of_nonneg
      unfold embedLen at hd
      split at hd <;> constructor <;> omega
    have hdsz : d < 65536 := by omega
    have hdlen : (data.take d).length = d := by
      rw [List.length_take]; omega
    have hdrop : b.drop g.pointLen = [] := by rw [← hbl]; simp
    rw [hdrop, List.append_nil] at hb'
    have hb'len : b'.length = g.pointLen := by
      rw [← hb']; simp only [List.length_append, hdlen, List.length_take, List.length_cons,
        List.length_nil, hbl]; omega
    refine ⟨data.take d, (List.take_append_drop d data).symm, by rw [hdlen]; exact hdmin.1, ?_,
      (g.valid_iff hP _).1 hval⟩
    -- the padded minimal encoding of the value is b' again
    have hval_lt : bytesToNat b' < 256 ^ g.pointLen := hb'len ▸ bytesToNat_lt b'
    have hmin := natToBytes_length hval_lt
    have hpad : (List.replicate (g.pointLen - (natToBytes (bytesToNat b')).length) 0 ++
        natToBytes (bytesToNat b')) = b' := by
      apply bytesToNat_inj
      · simp only [List.length_append, List.length_replicate, hb'len]; omega
      · rw [bytesToNat_pad, bytesToNat_natToBytes]
    have hsel : (if (natToBytes (bytesToNat b')).length < g.pointLen then
        List.replicate (g.pointLen - (natToBytes (bytesToNat b')).length) 0 ++
          natToBytes (bytesToNat b') else natToBytes (bytesToNat b')) = b' := by
      split
      · exact hpad
      · have h0 : g.pointLen - (natToBytes (bytesToNat b')).length = 0 := by omega
        rw [h0] at hpad
        simpa using hpad
    unfold ResidueGroup.data
    simp only [Int.natAbs_natCast]
    rw [hsel]
    have hpre : (b.take (g.pointLen - d - 2) ++ data.take d).length = g.pointLen - 2 := by
      simp only [List.length_append, hdlen, List.length_take, hbl]; omega
    have e2 : b'[g.pointLen - 2]? = some (UInt8.ofNat (d >>> 8)) := by
      rw [← hb', List.getElem?_append_right (by rw [hpre]), hpre]; simp
    have e1 : b'[g.pointLen - 1]? = some (UInt8.ofNat d) := by
      rw [← hb', List.getElem?_append_right (by rw [hpre]; omega), hpre]
      have : g.pointLen - 1 - (g.pointLen - 2) = 1 := by omega
      rw [this]; simp
    rw [e2, e1]
    have hl2 : ¬ (g.pointLen < 2) := by omega
    simp only [hl2, if_false]
    have hdl_eq : (UInt8.ofNat (d >>> 8)).toNat <<< 8 + (UInt8.ofNat d).toNat = d := by
      simp only [UInt8.toNat_ofNat', Nat.shiftRight_eq_div_pow, Nat.shiftLeft_eq]
      omega
    rw [hdl_eq]
    rw [if_neg (by omega), if_pos (by omega)]
    have htake : b'.take (g.pointLen - 2) = b.take (g.pointLen - d - 2) ++ data.take d := by
      rw [← hb', ← hpre, List.take_left']; rfl
    rw [htake, List.drop_left' (by rw [List.length_take, hbl]; omega)]

/-- C04: `Pick` never panics when the modulus has at least 24 bits. -/
theorem C04_pick_no_panic (g : ResidueGroup) (hbits : 24 ≤ bitLen g.P)
    (data : Bytes) (stream : List Bytes) (hs : ∀ b ∈ stream, b.length = g.pointLen) :
    g.pick data stream ≠ none := by
  induction stream with
  | nil => simp [pick]
  | cons b t ih =>
    unfold pick
    have hbl := hs b List.mem_cons_self
    have he : ∃ b', g.embed b data = some b' := by
      unfold embed
      have h2 : g.pickLen = ((bitLen g.P - 24) / 8 : Nat) := by
        unfold pickLen; rw [Int.tdiv_eq_ediv_of_nonneg (by omega)]; omega
      have h3 : 0 ≤ g.embedLen data ∧ (g.embedLen data) ≤ ((bitLen g.P - 24) / 8 : Nat) := by
        unfold embedLen; rw [h2]; split <;> omega
      have h4 : g.pointLen = (bitLen g.P + 7) / 8 := rfl
      rw [if_pos ⟨h3.1, by omega, by omega⟩]
      exact ⟨_, rfl⟩
    obtain ⟨b', hb'⟩ := he
    rw [hb']
    simp only [Option.bind_eq_bind, Option.bind_some]
    split
    · simp
    · exact ih (fun x hx => hs x (List.mem_cons_of_mem _ hx))

example : bitLen toy40.P = 40 ∧
    toy40.pick [0x9a] [[1, 2, 3, 4, 5], [0xda, 0xd2, 7, 7, 7]] = some (some (0xdad29a0001, [])) ∧
    toy40.data 0xdad29a0001 = some (some [0x9a]) := by
  refine ⟨by decide +kernel, ?_, ?_⟩ <;> decide +kernel

end ZRep.Props
