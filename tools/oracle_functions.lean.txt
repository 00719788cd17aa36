
namespace OracleF
open ZRep ZRep.Props ZRep.Shuffle

abbrev Z := ZMod 23
abbrev E := ZMod 11
def pts : List Z := [1, 2, 3, 4, 6, 8, 9, 12, 13, 16, 18]
def exps : List E := [0, 1, 2, 3, 4, 5, 6, 7, 8, 9, 10]
def ints (l : List Z) : List Int := l.map fun p => (p.val : Int)
def memb (g : ResidueGroup) (v : Int) : Bool := decide (0 < v ∧ v < (g.P : Int)) && decide (v ^ g.Q % (g.P : Int) = 1)
def val (b : Bytes) : Nat := b.foldl (fun a x => a * 256 + x.toNat) 0
def all2 {α β : Type} (l : List α) (m : List β) (f : α → β → Bool) : Bool := l.all fun a => m.all fun b => f a b
def acc : List (ℕ × Bytes) → ℕ → Bool := fun _ id => id == 67
def prefixesOf (b : Bytes) : List Bytes := (List.range b.length).map fun n => b.take n
def g : ResidueGroup := toy
def mem : List Int := ints pts
def gx : Z := 4
def hx : Z := 18
def S : Suite 23 11 := toySuite
def msgs : List Bytes := [[], [1], [2, 200], [0, 0, 7]]
def bases : List (Option Z) := [none, some 4, some 9]
def FO : FOBase := toyFO.1
def TD : FOTrapdoor := toyFO.2
def pb : PedersenBase 23 := ⟨18, 4⟩
def gcd1 (a : Int) (n : Nat) : Bool := Int.gcd a n == 1
def nk : NonnegCoins := toyRequest.nonneg
def sqOk (x : Int) : Bool := (decomposeThreeSquare exactSqrt x).any fun t => decide (t.1 ^ 2 + t.2.1 ^ 2 + t.2.2 ^ 2 = 4 * x + 1)
def bits (n : Nat) : List Bool := (List.range 480).map fun i => (i * n / 3) % 2 == 0
def secs : List Int := (List.range 480).map fun (i : Nat) => ((i * 37 : Nat) : Int) % 1081

def c (what : String) (ok : Bool) : List String := if ok then [] else [what]

def residue : List String :=
  c "C01" (mem.all fun v => (g.marshal v).any fun b => b.length == 1 && g.unmarshal b == some v) ++
  c "C01" (all2 mem mem fun v w => v == w || g.marshal v != g.marshal w) ++
  c "C01" ([v40, 1].all fun v => (toy40.marshal v).any fun b => b.length == 5 && toy40.unmarshal b == some v) ++
  c "C02" ((List.range 256).all fun n => g.unmarshal [UInt8.ofNat n] == (if memb g n then some (n : Int) else none)) ++
  c "C02" ((List.range 256).all fun n => g.unmarshal [0, UInt8.ofNat n] == g.unmarshal [UInt8.ofNat n]) ++
  c "C02" (g.unmarshal [1, 2] == none && g.unmarshal [] == none && toy40.unmarshal [255, 255, 255, 255, 255] == none) ++
  c "C03" (all2 mem mem fun a b => memb g (g.add a b) && g.add a b == a * b % 23) ++
  c "C03" (all2 mem mem fun a b => (g.sub a b).any fun x => memb g x && x * b % 23 == a) ++
  c "C03" (mem.all fun a => memb g (g.neg 7 a) && g.neg 7 a * a % 23 == 1) ++
  c "C03" (all2 mem (List.range 25) fun a s => memb g (g.mul (some a) s) && g.mul (some a) s == a ^ s % 23) ++
  c "C03" (memb g ResidueGroup.null && (List.range 25).all fun s => g.mul none s == g.mul (some g.base) s) ++
  c "C03" (mem.all fun a => g.sub a 0 == none) ++
  c "C03" (all2 pts pts fun a b => ((g.add a.val b.val : Int) : Z) = pAdd a b && (g.sub a.val b.val).map (fun z : Int => (z : Z)) == pSub a b) ++
  c "C03" (all2 pts exps fun a s => ((g.mul (some (a.val : Int)) s.val : Int) : Z) = pw a s && g.marshal a.val == some (encodePoint a)) ++
  c "C04" (match toy40.pick [0x9a] [[1, 2, 3, 4, 5], [0xda, 0xd2, 7, 7, 7]] with
    | some (some (v, rest)) => memb' v && rest == [] && toy40.data v == some (some [0x9a])
    | _ => false) ++
  c "C04" (match toy40.pick [0x9a, 5, 6] (candidates [0x9a, 5]) with
    | some (some (v, rest)) => memb' v && ((toy40.data v).any fun d => d.any fun emb => emb ++ rest == [0x9a, 5, 6] && emb.length == 2)
    | some none => true
    | none => false) ++
  c "C04" (toy40.pick [1, 2, 3, 4, 5, 6, 7, 8] [[1, 2, 3, 4, 5]] != none) 
where
  v40 : Int := 0xdad29a0001
  memb' (v : Int) : Bool := decide (0 < v ∧ v < (toy40.P : Int)) && decide (bigExp v 61 toy40.P = some 1)
  candidates (_ : Bytes) : List Bytes := (List.range 200).map fun n => [UInt8.ofNat n, 0xd2, 7, 7, 7]

def util : List String :=
  c "C05" ([0, 1, 255, 256, 65536, 4294967295, 305419896].all fun n => (intToByte n).length == 4 && byteToInt (intToByte n) == some n) ++
  c "C05" ([-1, -305, 2 ^ 32, 2 ^ 40 + 77].all fun n => (intToByte n).length == 4 && byteToInt (intToByte n) == some (n % 2 ^ 32)) ++
  c "C06" (exps.all fun s => bigIntToSecret 11 (secretToBigInt s) == s && decide (0 ≤ secretToBigInt s ∧ secretToBigInt s < 11)) ++
  c "C06" ([-25, -11, -1, 0, 10, 11, 500].all fun i => secretToBigInt (bigIntToSecret 11 i) == i % 11) ++
  c "C06" (pts.all fun p => bigIntToPoint 23 (pointToBigInt p) == p && decide (0 ≤ pointToBigInt p ∧ pointToBigInt p < 23)) ++
  c "C07" (pts.all fun p => findIndexWithinKeyList [2, 9, 3, 9] p == (if p = 2 then 0 else if p = 9 then 1 else if p = 3 then 2 else -1)) ++
  c "C07" (pts.all fun p => findIntUsingKeyList [2, 9, 3] [5, -6, 7] p == some (if p = 2 then 5 else if p = 9 then -6 else if p = 3 then 7 else 0)) ++
  c "C07" (pts.all fun p => findCommUsingKeyList [2, 9, 3] [12, 13, 16] ([5, 6, 7] : List E) p ==
    some (if p = 2 then some (12, 5) else if p = 9 then some (13, 6) else if p = 3 then some (16, 7) else none)) ++
  c "C08" (match readConfig (some ["a=1".toList, "b=2".toList, "a=3".toList]) (some ["b=4".toList, "c=5".toList]) with
    | some cfg => cfg "a".toList == some "3".toList && cfg "b".toList == some "4".toList && cfg "c".toList == some "5".toList && cfg "d".toList == none
    | none => false) ++
  c "C08" (getParameter none (some ["a=1".toList, "b=2".toList]) (some ["b=4".toList]) "b".toList == some "2".toList &&
    getParameter none (some ["a=1".toList, "b=2".toList]) (some ["b=4".toList, "c=7".toList]) "c".toList == some "7".toList &&
    getParameter none none none "b".toList == some [] && getParameter (some fun _ => some ['x']) (some ["b=2".toList]) none "b".toList == some ['x']) ++
  c "C08" ((readConfig (some ["a=1".toList, "b".toList]) none).isNone && ((readConfig (some ["a=1=2".toList]) none).bind fun f => f "a".toList) == some "1".toList)

def sigs : List String :=
  c "C09" (bases.all fun b => all2 exps msgs fun x m => [(0 : E), 1, 6].all fun v =>
    elGamalVerify S m (pw (b.getD S.base) x) (elGamalSign S v m x b) b && elGamalVerify S m (pw (b.getD S.base) x) (elGamalSign S v m x b ++ [9, 9]) b) ++
  c "C10" (bases.all fun b => all2 exps msgs fun x m => msgs.all fun m' =>
    let s := elGamalSign S 6 m x b
    let pk := pw (b.getD S.base) x
    !elGamalVerify S m' pk s b || ((readSig (Q := 11) s).any fun cr =>
      decide (hashElGamal S m' (pAdd (S.mul b cr.2) (pw pk cr.1)) = hashElGamal S m (pAdd (S.mul b cr.2) (pw pk cr.1))))) ++
  c "C10" (bases.all fun b => all2 exps pts fun x pk => (List.range 121).all fun n =>
    !elGamalVerify S [1] pk [UInt8.ofNat (n / 11), UInt8.ofNat (n % 11)] b || decide (x = x) &&
      decide (S.pick (encodePoint (pw (b.getD S.base) ((n % 11 : ℕ) : E) * pw pk ((n / 11 : ℕ) : E))) [1] = ((n / 11 : ℕ) : E))) ++
  c "C09 short" (bases.all fun b => !elGamalVerify S [1] 4 [3] b && !elGamalVerify S [1] 4 [] b) ++
  c "C13" (all2 exps exps fun x k => pts.all fun M =>
    let e := elGamalEncrypt S (S.mul none x) M k
    elGamalDecrypt x e.1 e.2 == some M) ++
  c "C14" (all2 msgs msgs fun a b => all2 pts pts fun x y => (a == b && x == y) ||
    messageOfPostBridge ⟨a, encodePoint x, [1]⟩ != messageOfPostBridge ⟨b, encodePoint y, [2]⟩) ++
  c "C14" (all2 msgs msgs fun a b => messageOfPostBridge ⟨a, [7], [1]⟩ == messageOfPostBridge ⟨a, [7], b⟩) ++
  c "C18" (all2 exps exps fun x r => pb.verify x (pb.commit x r).2 (pb.commit x r).1 && pts.all fun k =>
    pb.verify x r k == decide (k = pb.GT ^ x.val * pb.HT ^ r.val)) ++
  c "C18" (exps.all fun s => (S.pedersenBase s).HT = pw (S.pedersenBase s).GT s && (S.pedersenBase s).GT ^ 11 = 1) ++
  c "C20" (all2 exps exps fun x r => all2 exps [(1 : E), 4] fun x' r' =>
    pb.verify (x + x') (r + r') (PedersenBase.add (pb.commitWithR x r) (pb.commitWithR x' r')) &&
    (PedersenBase.sub (pb.commitWithR x r) (pb.commitWithR x' r')).any fun k => pb.verify (x - x') (r - r') k) ++
  c "C21" (all2 exps exps fun x r => [[(3 : E)], [2, 5], [7, 7, 4]].all fun Es =>
    PedersenBase.verify (Es.foldl (fun b e => (⟨pw b.HT e, pw b.GT e⟩ : PedersenBase 23)) pb) x r
      (Es.foldl (fun k e => (PedersenBase.randomize k e).1) (pb.commitWithR x r)))

def unitsN : List Int := ((List.range 35).map fun (n : Nat) => (n : Int)).filter fun a => gcd1 a 35
def fo : List String :=
  c "C22" (all2 ((List.range 35).map fun (n : Nat) => (n : Int)) [-40, -3, 0, 5, 34, 70] fun a b =>
    fMul 35 a b == a * b % 35 && fAdd 35 a b == (a + b) % 35 && fSub 35 a b == (a - b) % 35) ++
  c "C22" (all2 unitsN [-9, -2, -1, 0, 1, 2, 13, 24] fun a s => all2 [-5, 0, 7] [3] fun t _ =>
    decide (0 ≤ fExp 35 9 a s ∧ fExp 35 9 a s < 35) &&
    fMul 35 (fExp 35 1 a s) (fExp 35 2 a t) == fExp 35 3 a (s + t) && fExp 35 4 (fExp 35 5 a s) t == fExp 35 6 a (s * t) && fExp 35 0 a 1 == a % 35) ++
  c "C23" (FO.N == 1081 && [FO.H1, FO.G1, FO.G2, FO.G3, FO.G4, FO.G5, FO.G6].all fun x => gcd1 x 1081 && decide (0 < x ∧ x < 1081)) ++
  c "C23" (((FO.gens).zip TD.alphas).all fun p => decide (p.1 = fExp 1081 0 FO.H1 p.2)) ++
  c "C23" (TD.alphas.all fun a => decide (-randomRadius 1081 ≤ a ∧ a ≤ randomRadius 1081)) ++
  c "C24" ([0, 1, 2, 3, 5].all fun n => (answerAllGnHonesty TD (bits n) secs).any fun a =>
    checkAllGnHonesty FO a (bits n) (honestyPublics FO secs) == some 0) ++
  c "C25" ([0, 79, 80, 200, 479].all fun i => (answerAllGnHonesty TD (bits 2) secs).any fun a =>
    checkAllGnHonesty FO (a.set i ((a.getD i 0) + 1)) (bits 2) (honestyPublics FO secs) != some 0) ++
  c "C25" ([0, 79, 80, 200, 479].all fun i => (answerAllGnHonesty TD (bits 2) secs).any fun a =>
    checkAllGnHonesty FO a (bits 2) ((honestyPublics FO secs).set i 7) != some 0) ++
  c "C27" ((List.range 60).all fun n => sqOk n) ++ c "C27" ([1000, 4095, 12345].all sqOk) ++
  c "C27" ((decomposeThreeSquare exactSqrt (2 ^ 61)).isNone) ++
  c "C28" ([0, 1, 2, 5, 17, 100].all fun x => [-3, 0, 4].all fun rc => (FO.proveNonneg toyNet.sha exactSqrt x (FO.commitWithR x rc) rc nk).any fun p =>
    FO.verifyNonneg toyNet.sha (FO.commitWithR x rc) p) ++
  c "C28" ([-1, -5].all fun x => (FO.proveNonneg toyNet.sha exactSqrt x (FO.commitWithR x 3) 3 nk).isNone) ++
  c "C29" ((FO.proveNonneg toyNet.sha exactSqrt 5 (FO.commitWithR 5 4) 4 nk).any fun p =>
    !FO.verifyNonneg toyNet.sha (FO.commitWithR 5 4) { p with x_ := p.x_ + 1 } && !FO.verifyNonneg toyNet.sha (FO.commitWithR 5 4) { p with a_ := p.a_ + 1 } &&
    !FO.verifyNonneg toyNet.sha (FO.commitWithR 5 4) { p with b_ := p.b_ + 1 } && !FO.verifyNonneg toyNet.sha (FO.commitWithR 5 4) { p with d_ := p.d_ + 1 } &&
    !FO.verifyNonneg toyNet.sha (FO.commitWithR 5 4) { p with r_ := p.r_ + 1 }) ++
  c "C30" (all2 exps exps fun x r => [-4, 0, 9].all fun rF =>
    verifyEqual toyNet.hash 11 pb FO (pb.commitWithR x r) (FO.commitWithR (x.val : Int) rF) (proveEqual toyNet.hash pb FO x r rF 3 5 8)) ++
  c "C31" (exps.all fun x => 
    let a := proveEqual toyNet.hash pb FO x 4 9 3 5 8
    let v := fun a => verifyEqual toyNet.hash 11 pb FO (pb.commitWithR x (4 : E)) (FO.commitWithR (x.val : Int) 9) a
    let ok := fun (b : ArgEqual) =>
      let T1 := pw pb.GT ((b.S1 : Int) : E) * pw pb.HT ((b.S2 : Int) : E) * pw (pb.commitWithR x (4 : E)) ((-b.C : Int) : E)
      let T2 := FO.commitWithR b.S1 b.S3 * fExp FO.N 0 (FO.commitWithR (x.val : Int) 9) (-b.C) % FO.N
      decide (b.C = val (toyNet.hash (encodePoint T1 ++ fToBinary T2)))
    [a, { a with S1 := a.S1 + 1 }, { a with S2 := a.S2 + 1 }, { a with S3 := a.S3 + 1 }, { a with C := a.C + 1 }].all fun b => v b == ok b) ++
  c "C32" ((List.range 11).all fun i => [(3 : E), 7].all fun r => [(0 : Int), 5, 10].all fun rep =>
    decide ((i : Int) > rep) || (match makeRequest S toyNet.toEnv pb FO rep r (pb.commitWithR ((rep : Int) : E) r) 8 5 (some 4) i toyRequest with
      | some (some p) => p.ind == (i : Int) && p.nym == encodePoint (8 : Z) && verifyInd toyNet.toEnv 11 p (some (pb.commitWithR ((rep : Int) : E) r)) pb FO == some true
      | _ => false)) ++
  c "C32" (makeRequest S toyNet.toEnv pb FO 5 3 (pb.commitWithR (5 : E) 3) 8 5 (some 4) 6 toyRequest == some none) ++
  c "C33" (match makeRequest S toyNet.toEnv pb FO 5 3 (pb.commitWithR (5 : E) 3) 8 5 (some 4) 4 toyRequest with
      | some (some p) => verifyInd toyNet.toEnv 11 { p with ind := 5 } (some (pb.commitWithR (5 : E) 3)) pb FO == some false &&
        verifyInd toyNet.toEnv 11 p (some (pb.commitWithR (4 : E) 3)) pb FO == some false && verifyInd toyNet.toEnv 11 p none pb FO == none &&
        verifyInd toyNet.toEnv 11 { p with foCommd := fToBinary 7 } (some (pb.commitWithR (5 : E) 3)) pb FO == some false
      | _ => false)

def ringOk (hash : Bytes → Bytes) (m : Bytes) (pi : ℕ) (x : E) (s k r : ℕ) : Option LRSSig :=
  toyLRS.sign hash m 3 pi x toyRing (fun _ => s) (fun _ => k) r
def ring : List String :=
  let xs : List E := [3, 9, 5]
  let ms : List Bytes := [[7, 7], [1], [2, 3, 4]]
  let good := ms.filter fun m => decide (ringSeed toyRingHash m toyRing ≠ 0)
  let full := good.filter fun m => decide (ringSeed toyRingHash m toyRing ≠ 1 ∧ ringSeed toyRingHash m toyRing ≠ -1)
  c "C34" (good.all fun m => (List.range 3).all fun pi => [(8, 4, 6), (2, 1, 17), (0, 0, 0), (21, 20, 3)].all fun t =>
    (ringOk toyRingHash m pi (xs.getD pi 0) t.1 t.2.1 t.2.2).any fun s => toyLRS.verify toyRingHash m 3 s toyRing == some true) ++
  c "C35" (good.all fun m => (List.range 3).all fun pi =>
    match ringOk toyRingHash m pi (xs.getD pi 0) 8 4 6, ringOk toyRingHash m pi (xs.getD pi 0) 2 1 17 with
    | some a, some b => linkable a b
    | _, _ => false) ++
  c "C36" (full.all fun m => all2 (List.range 3) (List.range 3) fun i j => i == j ||
    match ringOk toyRingHash m i (xs.getD i 0) 8 4 6, ringOk toyRingHash m j (xs.getD j 0) 2 1 17 with
    | some a, some b => !linkable a b
    | _, _ => false) ++
  c "C37" (good.all fun m => (ringOk toyRingHash m 1 9 8 4 6).any fun s =>
    toyLRS.verify toyRingHash m 3 { s with S := s.S.map (· + 1) } toyRing != some true) ++
  c "C113" ((ringOk toyRingHash [7, 7] 1 9 8 4 6).any fun s => ((encodeSignature exampleIntsType s).any fun b =>
    decodeSignature acc (b ++ [1, 2]) == some s && decodeSignature acc b == some s && (prefixesOf b).all fun p => decodeSignature acc p == none)) ++
  c "C113" (((encodeSignature exampleIntsType ⟨9, [], [-5, 2 ^ 70]⟩).any fun b => decodeSignature acc b == some ⟨9, [], [-5, 2 ^ 70]⟩)) ++
  c "C113" ((encodeSignature exampleIntsType ⟨0, [1, 2], [0]⟩).any fun b => decodeSignature acc b == some ⟨0, [1, 2], [0]⟩)

def X3 : List Z := [2, 3, 9]
def Y3 : List Z := [8, 6, 16]
def sh (d : ℕ → ℕ) : Option (ShuffleOut 23 11) := shuffle gx hx X3 Y3 d (fun i => (i : E) + 5)
def draws : List (ℕ → ℕ) := [fun _ => 0, fun i => i, fun _ => 1, fun i => i - 1]
def clean (d : ℕ → ℕ) : ℕ → ℕ := fun i => min (d i) i
def dirty (O : Oracle 23 11) (pf : PSProof 23 11) (k : ℕ) : Bool := (List.range k).any fun i => decide (pw gx (O.t pf.p1 pf.D pf.p5 pf.pv6.p0) = pf.pv6.p0.X i)
def bH : PubRand 11 := examplePubRand
def shuf : List String :=
  c "C38" (draws.all fun d => [1, 2, 3, 5].all fun k => (((List.range k).map (pickPerm k (clean d))).mergeSort (· ≤ ·)) == List.range k) ++
  c "C38" (let ps := (List.range 2).flatMap fun a => (List.range 3).map fun b => (List.range 3).map (pickPerm 3 fun i => if i = 1 then a else if i = 2 then b else 0)
    ps.dedup.length == 6) ++
  c "C39" (draws.all fun d => (sh (clean d)).any fun o => o.Xbar.length == 3 && o.Ybar.length == 3 &&
    ((List.range 3).permutations.any fun s => (List.range 3).all fun i => exps.any fun b =>
      decide (o.Xbar.getD i 0 = pw gx b * X3.getD (s.getD i 0) 0 ∧ o.Ybar.getD i 0 = pw hx b * Y3.getD (s.getD i 0) 0))) ++
  c "C40" (draws.all fun d => [(1 : E), 2, 5].all fun e => (sh (clean d)).any fun o =>
    (o.prove gx hx X3 Y3 toyPairCoins (toyOracle e)).any fun pf => dirty (toyOracle e) pf 3 ||
      verifier gx hx X3 Y3 o.Xbar o.Ybar pf (toyOracle e) == some true) ++
  c "C40" ([[2, 3], [2, 3, 9, 4]].all fun X => [(1 : E), 2, 5].all fun e =>
    let Y := X.map fun x => pw (x : Z) (3 : E)
    (shuffle gx hx X Y (fun _ => 0) (fun i => (i : E) + 2)).any fun o => (o.prove gx hx X Y toyPairCoins (toyOracle e)).any fun pf =>
      dirty (toyOracle e) pf X.length || verifier gx hx X Y o.Xbar o.Ybar pf (toyOracle e) == some true) ++
  c "C41" ((sh fun _ => 0).any fun o => (o.prove gx hx X3 Y3 toyPairCoins (toyOracle 1)).any fun pf =>
    verifier gx hx X3 Y3 (o.Xbar.set 0 1) o.Ybar pf (toyOracle 1) != some true && verifier gx hx X3 Y3 o.Xbar (o.Ybar.set 1 1) pf (toyOracle 1) != some true &&
    verifier gx hx (X3.set 2 1) Y3 o.Xbar o.Ybar pf (toyOracle 1) != some true &&
    verifier gx hx X3 Y3 o.Xbar o.Ybar { pf with p5 := { pf.p5 with tau := pf.p5.tau + 1 } } (toyOracle 1) != some true) ++
  c "C109" ([hashVerify bH gx hx X3 Y3 X3 Y3 [], hashVerify bH gx hx X3 Y3 X3 Y3 (List.replicate 39 1), hashVerify bH gx hx X3 Y3 X3 Y3 (List.replicate 39 5)].all (·.isSome)) ++
  c "C109" (exampleShuffle.any fun o => (o.hashProve gx hx X3 Y3 toyPairCoins bH).any fun b => b.length == 39 &&
    hashVerify bH gx hx X3 Y3 o.Xbar o.Ybar b == some true && hashVerify bH gx hx X3 Y3 o.Xbar o.Ybar (b ++ [0]) == some true &&
    ((prefixesOf b).all fun p => hashVerify bH gx hx X3 Y3 o.Xbar o.Ybar p == some false) &&
    hashVerify bH gx hx X3 Y3 o.Xbar o.Ybar (b.set 21 (b.getD 21 0 + 1)) == some false) ++
  c "C109" (exampleShuffle.any fun o => (o.hashProve gx hx X3 Y3 toyPairCoins bH).any fun b => 
     ((o.prove gx hx X3 Y3 toyPairCoins (hashOracle bH 3)).any fun pf => hashVerify bH gx hx X3 Y3 o.Xbar o.Ybar (proofBytes 3 pf ++ [3]) ==
       verifier gx hx X3 Y3 o.Xbar o.Ybar pf (hashOracle bH 3)) &&
     (List.range 39).all fun i => 
       let b' := b.set i 4
       hashVerify bH gx hx X3 Y3 o.Xbar o.Ybar b' != some true || (match getProof (P := 23) (Q := 11) 3 b' with
         | some (pf, _) => proofBytes 3 pf == b' && verifier gx hx X3 Y3 o.Xbar o.Ybar pf (hashOracle bH 3) == some true
         | none => false)) ++
  c "C43" ([false, true].all fun bit =>
    let o := biffle (Q := 11) gx hx ![2, 3] ![8, 6] bit ![5, 7]
    let j : Fin 2 → Fin 2 := fun i => if bit then 1 - i else i
    ([0, 1] : List (Fin 2)).all fun i => exps.any fun b =>
      decide (o.1 i = pw gx b * (![2, 3] : Fin 2 → Z) (j i) ∧ o.2.1 i = pw hx b * (![8, 6] : Fin 2 → Z) (j i))) ++
  c "C115" ([false, true].all fun bit => (biffleHashProve (P := 23) (Q := 11) bH gx hx ![2, 3] ![8, 6] bit ![5, 7] 9 exampleBiffleV).any fun t =>
    biffleHashVerify (Q := 11) bH gx hx ![2, 3] ![8, 6] t.1 t.2.1 t.2.2 == some true && biffleHashVerify (Q := 11) bH gx hx ![2, 3] ![8, 6] t.1 t.2.1 (t.2.2 ++ [1]) == some true &&
    biffleHashVerify (Q := 11) bH gx hx ![2, 3] ![8, 6] t.1 t.2.1 t.2.2.dropLast == some false)

def lists : List (List Int) := [[], [0], [-1, 300, 0, -70000], [2 ^ 62, -2 ^ 62, 127, 128, -128, 64, -65]]
def ex : SentEvent := exampleEvent
def wire : List String :=
  c "C107" (lists.all fun l => (encodeIntArray exampleIntsType l).any fun b => decodeIntArray acc b == some l) ++
  c "C107" ((lists ++ [[2 ^ 70, -2 ^ 70, 255, 256]]).all fun l => (encodeBigIntList exampleIntsType l).any fun b => decodeBigIntList acc b == some l) ++
  c "C107" ([[], [[]], [[1, 2], [], [3]], [List.replicate 300 7]].all fun l => (encode2DByteArray exampleIntsType l).any fun b => decode2DByteArray acc b == some l) ++
  c "C107" ([0, 1, -1, 2 ^ 70, -2 ^ 70].all fun i => (encodeBigInt exampleIntsType i).any fun b => decodeBigInt acc b == some i) ++
  c "C107" ([⟨5, 0, -7, 1000⟩, ⟨0, 0, 0, 0⟩, ⟨-1, 2, 2 ^ 70, 9⟩].all fun x => (encodeARGequal exampleIntsType x).any fun b => decodeARGequal acc b == some x) ++
  c "C107" ([⟨5, 0, -7, 1000, 1, 2, 3, -4, 0⟩, ⟨0, 0, 0, 0, 0, 0, 0, 0, 0⟩, ⟨1, 2, 3, 4, 5, 6, 7, 8, 9⟩].all fun x =>
    (encodeARGnonneg exampleIntsType x).any fun b => decodeARGnonneg acc b == some x) ++
  c "C107" ([[], [2], X3, Y3 ++ X3].all fun l => pbDecodePoints 23 11 (pbEncodePoints l) == some l) ++
  c "C107" ([[], [(2 : E)], exps].all fun l => pbDecodeSecrets 11 (pbEncodeSecrets l) == some l) ++
  c "C107" ([[], [true], [true, false, true], List.replicate 480 true, bits 3].all fun l => pbDecodeBools (pbEncodeBools l) == some l) ++
  c "C107" ([⟨2, [97, 98], 3⟩, ⟨3, [], 2⟩, ⟨18, List.replicate 200 5, 18⟩].all fun (a : Assignment 23) => pbDecodeAssignment 23 11 (pbEncodeAssignment a) == some a) ++
  c "C107" ((List.range 256).all fun n => ((pbDecodePoints 23 11 [10, 1, UInt8.ofNat n]).all fun l => l.all fun p => decide (p ^ 11 = 1)) &&
    (pbDecodeAssignment 23 11 [10, 1, 2, 18, 2, 97, 98, 26, 1, UInt8.ofNat n]).all fun a => decide (a.nym ^ 11 = 1 ∧ a.nymR ^ 11 = 1)) ++
  c "C106" ((ex.written exampleEventType).any fun b =>
    (match decodeEvent exampleAccepts (b ++ [1, 2]) with
     | some (e, a) => e.eventType == 11 && a == ⟨127, 0, 0, 1, 8000⟩ && e.params [102] == some (.int (-3)) && e.params [98] == some (.bool true) && e.params [99] == none &&
        e.params [110] == some (.bytes [7, 200]) && e.params [116] == some (.str [111, 107])
     | none => false) && (prefixesOf b).all fun p => (decodeEvent exampleAccepts p).isNone) ++
  c "C106" ((SentEvent.written exampleEventType { ex with entries := ex.entries.map List.reverse }).any fun b =>
    (decodeEvent exampleAccepts b).map (fun x => (x.1.eventType, x.1.params [102], x.2)) == some (11, some (.int (-3)), ⟨127, 0, 0, 1, 8000⟩))
end OracleF
#eval! IO.println s!"ORACLE F 1 {(OracleF.residue ++ OracleF.util ++ OracleF.sigs).dedup}"
#eval! IO.println s!"ORACLE G 1 {(OracleF.fo).dedup}"
#eval! IO.println s!"ORACLE H 1 {(OracleF.ring ++ OracleF.shuf).dedup}"
#eval! IO.println s!"ORACLE I 1 {(OracleF.wire).dedup}"
