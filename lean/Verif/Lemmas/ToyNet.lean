/-
A computable environment (codecs, hashes) for the concrete cases shown beside the theorems, and for any moduli.
-/
import Verif.Model.Net
import Verif.Props.Nonneg
import Verif.Props.Shuffle

set_option linter.unusedSimpArgs false

namespace ZRep

variable {P Q : ℕ}

/-! ### lists of byte strings: every byte is preceded by 1, every string ends with 0 -/

def frame (b : Bytes) : Bytes := (b.flatMap fun x => [1, x]) ++ [0]

def arrEnc (l : List Bytes) : Bytes := l.flatMap frame

def arrDec : Bytes → Bytes → Option (List Bytes)
  | [], acc => if acc = [] then some [] else none
  | b :: r, acc =>
    if b = 0 then (arrDec r []).map (acc.reverse :: ·)
    else match r with
      | [] => none
      | x :: r' => arrDec r' (x :: acc)

theorem arrDec_frame (b rest acc : Bytes) :
    arrDec (frame b ++ rest) acc = (arrDec rest []).map ((acc.reverse ++ b) :: ·) := by
  induction b generalizing acc with
  | nil =>
    rw [show frame [] ++ rest = 0 :: rest from rfl, arrDec.eq_def]
    simp
  | cons x b ih =>
    have : frame (x :: b) ++ rest = 1 :: x :: (frame b ++ rest) := by simp [frame]
    rw [this, arrDec]
    simp only [show ((1 : UInt8) = 0) = False by decide, if_false]
    rw [ih]
    simp

theorem arrDec_arrEnc (l : List Bytes) : arrDec (arrEnc l) [] = some l := by
  induction l with
  | nil => rfl
  | cons b l ih =>
    have : arrEnc (b :: l) = frame b ++ arrEnc l := by simp [arrEnc]
    rw [this, arrDec_frame, ih]; simp

def arrCodec : Codec (List Bytes) := ⟨arrEnc, fun b => arrDec b [], arrDec_arrEnc⟩

/-! ### integers -/

def intEnc (i : Int) : Bytes := (if i < 0 then 1 else 0) :: natToBytes i.natAbs

def intDec : Bytes → Option Int
  | [] => none
  | b :: r => some (if b = 0 then (bytesToNat r : Int) else -(bytesToNat r : Int))

theorem intDec_intEnc (i : Int) : intDec (intEnc i) = some i := by
  unfold intEnc intDec
  simp only [bytesToNat_natToBytes, Option.some.injEq]
  by_cases hi : i < 0
  · simp only [if_pos hi, show ((1 : UInt8) = 0) = False by decide, if_false]; omega
  · simp only [if_neg hi, if_true]; omega

def intsEnc (l : List Int) : Bytes := arrEnc (l.map intEnc)

def intsDec (b : Bytes) : Option (List Int) := do
  let l ← arrDec b []
  l.mapM intDec

theorem intsDec_intsEnc (l : List Int) : intsDec (intsEnc l) = some l := by
  unfold intsDec intsEnc
  rw [arrDec_arrEnc]
  simp only [Option.bind_eq_bind, Option.bind_some]
  induction l with
  | nil => rfl
  | cons a l ih => simp [intDec_intEnc, ih]

def nonnegCod : Codec ArgNonneg where
  enc p := intsEnc [p.commitrx, p.C, p.Cr, p.R, p.x_, p.a_, p.b_, p.d_, p.r_]
  dec b := match intsDec b with
    | some [a, b, c, d, e, f, g, h, i] => some ⟨a, b, c, d, e, f, g, h, i⟩
    | _ => none
  dec_enc p := by rw [intsDec_intsEnc]

def equalCod : Codec ArgEqual where
  enc p := intsEnc [p.C, p.S1, p.S2, p.S3]
  dec b := match intsDec b with
    | some [a, b, c, d] => some ⟨a, b, c, d⟩
    | _ => none
  dec_enc p := by rw [intsDec_intsEnc]

/-! ### assignments -/

def asgEncToy (a : Assignment P) : Bytes := arrEnc [natToBytes a.nymR.val, a.addr, natToBytes a.nym.val]

def asgDecToy (Q : ℕ) (b : Bytes) : Option (Assignment P) :=
  match arrDec b [] with
  | some [x, a, y] =>
    if validPoint Q ((bytesToNat x : ℕ) : ZMod P) ∧ validPoint Q ((bytesToNat y : ℕ) : ZMod P) then
      some ⟨(bytesToNat x : ℕ), a, (bytesToNat y : ℕ)⟩
    else none
  | _ => none

/-- An environment with the given challenges. -/
def toyNetEnv [NeZero P] (oracle : Shuffle.Oracle P Q) : NetEnv P Q where
  hash := fun b => [b.foldl (· + ·) 0]
  sha := fun b => [b.foldl (· + ·) 0]
  nonnegCodec := nonnegCod
  equalCodec := equalCod
  fsqrt := Props.exactSqrt
  asgEnc := asgEncToy
  asgDec := asgDecToy Q
  asg_dec_enc := by
    intro a h1 h2
    unfold asgDecToy asgEncToy
    rw [arrDec_arrEnc]
    simp only [bytesToNat_natToBytes, ZMod.natCast_zmod_val]
    rw [if_pos ⟨h1, h2⟩]
  asg_dec_valid := by
    intro b a h
    unfold asgDecToy at h
    split at h
    · split at h
      · rename_i hv
        cases h; exact hv
      · cases h
    · cases h
  arr2 := arrCodec
  encPts := fun l => l.mapM id
  encPts_some := by
    intro l
    induction l with
    | nil => rfl
    | cons a l ih => simp [ih]
  oracle := fun _ => oracle

/-- the environment of the examples -/
def toyNet : NetEnv 23 11 := toyNetEnv (Props.toyOracle 1)

end ZRep
