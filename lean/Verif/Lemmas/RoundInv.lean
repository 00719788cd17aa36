/-
The invariant behind C60-C63: what coordinator, servers, clients and messages on their way say about every
participant's account.
-/
import Verif.Lemmas.RoundHop
import Verif.Props.Pedersen
import Verif.Props.Registration

set_option linter.unusedSectionVars false
set_option linter.unusedSimpArgs false

namespace ZRep
open Props

variable {P Q : ℕ}

/-- a participant: long-term key, reputation, randomness of its commitment -/
structure Acct (P Q : ℕ) where
  key : ZMod P
  rep : Int
  R : ZMod Q

/-- the commitment to the reputation -/
def Acct.comm (b : PedersenBase P) (a : Acct P Q) : ZMod P := b.commitWithR (a.rep : ZMod Q) a.R

/-- the row of the table after keys have been raised to `X` -/
def Acct.row (X : ZMod Q) (b : PedersenBase P) (a : Acct P Q) : ZMod P × ZMod P := (pw a.key X, a.comm b)

def Matches (m : GoMap (ZMod P) (ZMod P)) (l : List (ZMod P × ZMod P)) : Prop :=
  ∀ k v, m.lookup k = some v ↔ (k, v) ∈ l

/-- the key map belonging to a commitment map -/
def IdOn (K C : GoMap (ZMod P) (ZMod P)) : Prop := ∀ k v, C.lookup k = some v → K.lookup k = some k

/-- a server remembers, for keys it has raised, what they were before -/
def Sane (km : GoMap (ZMod P) (ZMod P)) (rk : ZMod Q) : Prop :=
  ∀ y b, km.lookup y = some b → validPoint Q b ∧ y = pw b rk

/-- the j-th stop of a message on its way forward -/
def hopAddr (ca : Addr) (L : List Addr) (j : ℕ) : Addr := (L[j]?).getD ca

/-- the stop of a message on its way back when j servers are left -/
def prevAddr (ca : Addr) (L : List Addr) (j : ℕ) : Addr := if j = 0 then ca else (L[j - 1]?).getD ca

namespace View

variable (V : View P Q)

def rk (a : Addr) : ZMod Q := ((V.srv a).map SrvV.rk).getD 0

def km (a : Addr) : GoMap (ZMod P) (ZMod P) := ((V.srv a).map SrvV.km).getD ∅

/-- the product of the round keys of the first j servers -/
def X (j : ℕ) : ZMod Q := ((V.L.take j).map V.rk).prod

/-- the first j servers can undo what they did to the key of account `a` -/
def Knows (j : ℕ) (a : Acct P Q) : Prop :=
  ∀ i < j, ∀ s, V.L[i]? = some s → ((V.km s).lookup (pw a.key (V.X (i + 1)))).isSome = true

def virt (v : ClV P Q) : Option (ClCore P Q) := v.core.absorb v.x (box V.net v.addr)

def ids : List (Addr × ZMod P × ZMod Q) := V.cls.map fun v => (v.addr, v.pk, v.x)

def joins : List (Packet P Q) := V.net.filter (·.msg.isJoin)

def toks : List (Packet P Q) := V.net.filter (·.msg.isTok)

end View

def keysOf (book : List (Acct P Q)) : List (ZMod P) := book.map Acct.key

/-- what holds in every phase -/
structure Base (S : Suite P Q) (V : View P Q) (K0 : ZMod P → Prop) (book : List (Acct P Q)) : Prop where
  Lne : V.L ≠ []
  Lnd : V.L.Nodup
  caL : V.ca ∉ V.L
  idL : ∀ i ∈ V.ids, i.1 ∉ V.L ∧ i.1 ≠ V.ca
  idNd : (V.ids.map (·.1)).Nodup
  pkNd : (V.ids.map (·.2.1)).Nodup
  pkx : ∀ i ∈ V.ids, i.2.1 = S.mul none i.2.2
  valid : ∀ a ∈ book, validPoint Q a.key
  nodup : (keysOf book).Nodup
  keys : ∀ k ∈ keysOf book, K0 k ∨ ∃ i ∈ V.ids, i.2.1 = k
  old : ∀ k, K0 k → k ∈ keysOf book
  reg : ∀ k a, V.clients.lookup k = some a ↔ k ∈ keysOf book ∧ ∃ i ∈ V.ids, i.2.1 = k ∧ i.1 = a
  ped : validPoint Q V.ped.GT ∧ validPoint Q V.ped.HT
  setup : ∀ p ∈ V.net, p.msg.isSetup = false
  src : ∀ p ∈ V.net, p.msg.isBcast = true → p.src = V.ca
  bdst : ∀ p ∈ V.net, p.msg.isBcast = true → p.dst ∈ V.L ∨ ∃ i ∈ V.ids, i.1 = p.dst
  joinP : ∀ p ∈ V.joins, ∀ pk, p.msg = .clientRegisterController pk →
    p.dst = V.ca ∧ pk ∉ keysOf book ∧ ∃ i ∈ V.ids, i.1 = p.src ∧ i.2.1 = pk
  joinU : (V.joins.map (·.src)).Nodup
  cover : ∀ i ∈ V.ids, i.2.1 ∈ keysOf book ∨
    ∃ p ∈ V.joins, p.msg = .clientRegisterController i.2.1 ∧ p.src = i.1
  first : V.first = true → book = [] ∧ V.ids = []

/-- the servers -/
def SvP (V : View P Q) (Pr : SrvTbl P → Prop) : Prop :=
  ∀ a ∈ V.L, ∃ s T, V.srv a = some s ∧ s.rk ≠ 0 ∧ Sane s.km s.rk ∧ s.tbl.absorb Q (box V.net a) = some T ∧ Pr T

/-- the clients, once all messages on their way to them have arrived -/
def ClP (V : View P Q) (book : List (Acct P Q)) (Pr : ZMod Q → Acct P Q → ClCore P Q → Prop) : Prop :=
  ∀ v ∈ V.cls, (v.pk ∉ keysOf book → box V.net v.addr = [] ∧ v.core.rep = StartingCredit) ∧
    ∀ a ∈ book, a.key = v.pk → ∃ κ, V.virt v = some κ ∧ κ.R = some a.R ∧ Pr v.x a κ

/-- a table on its way -/
structure TableOK (t : TableMsg P Q) (X : ZMod Q) (tab : List (Acct P Q)) : Prop where
  sq : t.Square
  GT : validPoint Q t.GT
  HT : validPoint Q t.HT
  table : t.table.Perm (tab.map (Acct.row X { GT := t.GT, HT := t.HT }))

def NoReg (V : View P Q) : Prop := ∀ p ∈ V.net, p.msg.isJoin = false ∧ p.msg.isPass = false

/-- between two rounds -/
structure ReadyP (V : View P Q) (tab : List (Acct P Q)) : Prop where
  pc : V.pc = .waitReady
  status : V.status = .readyForNewRound
  toks : V.toks = []
  noReg : NoReg V
  begC : Matches V.begC (tab.map fun a => (a.key, a.comm V.ped))
  begK : IdOn V.begK V.begC
  sv : SvP V fun _ => True
  cl : ClP V tab fun _ a κ => κ.rep = a.rep

/-- the announcement has passed j servers -/
structure AnnP (S : Suite P Q) (V : View P Q) (tab : List (Acct P Q)) (j : ℕ) : Prop where
  pc : V.pc = .waitMessage
  status : V.status = .announce
  first : V.first = false
  buf : V.buf = []
  noReg : NoReg V
  le : j ≤ V.L.length
  tok : ∃ p t, V.toks = [p] ∧ p.msg = .announcement t ∧ p.dst = hopAddr V.ca V.L j ∧ TableOK t (V.X j) tab ∧
    t.g.getD S.base = pw S.base (V.X j)
  knows : ∀ a ∈ tab, V.Knows j a
  begC : ∀ a ∈ tab, (V.begC.lookup a.key).isSome = true
  sv : SvP V fun _ => True
  cl : ClP V tab fun _ a κ => κ.rep = a.rep

/-- posting and voting -/
structure MsgP (S : Suite P Q) (V : View P Q) (tab newc : List (Acct P Q)) (g : ZMod P) : Prop where
  pc : V.pc = .waitMessage ∨ V.pc = .posting ∨ V.pc = .voting
  status : V.status = .message
  first : V.first = false
  toks : V.toks = []
  G : V.G = some g
  gX : g = pw S.base (V.X V.L.length)
  endC : Matches V.endC (tab.map (Acct.row (V.X V.L.length) V.ped))
  endK : IdOn V.endK V.endC
  allKeys : V.keys.Perm (tab.map fun a => pw a.key (V.X V.L.length))
  rep : ∀ y d, V.rep.lookup y = some d → (V.endC.lookup y).isSome = true ∨ ∃ c ∈ V.buf, c.nym = y
  knows : ∀ a ∈ tab, V.Knows V.L.length a
  new : ∀ a ∈ newc, (∃ p ∈ V.net, ∃ j ≤ V.L.length, ∃ addr,
        p.msg = .clientRegisterServer (pw a.key (V.X j)) addr (a.comm V.ped) ∧ p.dst = hopAddr V.ca V.L j ∧ V.Knows j a) ∨
      (⟨pw a.key (V.X V.L.length), a.comm V.ped⟩ ∈ V.buf ∧ V.Knows V.L.length a)
  pass : ∀ p ∈ V.net, ∀ k addr c, p.msg = .clientRegisterServer k addr c →
    ∃ a ∈ newc, ∃ j ≤ V.L.length, p.dst = hopAddr V.ca V.L j ∧ k = pw a.key (V.X j) ∧ c = a.comm V.ped ∧ V.Knows j a
  buf : ∀ d ∈ V.buf, ∃ a ∈ newc, d.nym = pw a.key (V.X V.L.length) ∧ d.pcomm = a.comm V.ped
  newCl : ∀ a ∈ newc, ∃ i ∈ V.ids, i.2.1 = a.key
  begC : ∀ a ∈ tab, (V.begC.lookup a.key).isSome = true
  sv : SvP V fun T => T.G = some g ∧ T.ped = V.ped ∧ Matches T.comms (tab.map (Acct.row (V.X V.L.length) V.ped))
  cl : ClP V (tab ++ newc) fun x a κ => κ.rep = a.rep ∧ κ.nym = pw g x ∧ κ.G = some g ∧
    (a ∈ tab → κ.ped = V.ped ∧ κ.pcommr = some (a.comm V.ped) ∧ κ.keys = V.keys)

/-- the round end is on its way back and has j servers to pass -/
structure EndP (S : Suite P Q) (V : View P Q) (tab : List (Acct P Q)) (j : ℕ) (g : ZMod P) : Prop where
  pc : V.pc = .waitReady
  status : V.status = .message
  first : V.first = false
  noReg : NoReg V
  le : j ≤ V.L.length
  gv : validPoint Q g
  rep : ∀ y d, V.rep.lookup y = some d → V.endK.lookup y = some y ∧ validPoint Q y
  tok : ∃ p t, V.toks = [p] ∧ p.msg = .roundEnd t ∧ p.dst = prevAddr V.ca V.L j ∧ TableOK t (V.X j) tab
  knows : ∀ a ∈ tab, V.Knows j a
  sv : SvP V fun _ => True
  cl : ClP V tab fun x a κ => κ.nym = pw g x ∧ a.rep = κ.rep + GoMap.getD V.rep (pw g x) 0

/-- the invariant once the servers are set up -/
def Live (S : Suite P Q) (V : View P Q) (K0 : ZMod P → Prop) (tab newc : List (Acct P Q)) : Prop :=
  Base S V K0 (tab ++ newc) ∧
    ((ReadyP V tab ∧ newc = []) ∨ (∃ j, AnnP S V tab j ∧ newc = []) ∨ (∃ g, MsgP S V tab newc g) ∨
      (∃ j g, EndP S V tab j g ∧ newc = []))

/-- the invariant while servers are set up -/
structure SetupP (s : Sys P Q) : Prop where
  pc : s.coord.pc = .keyStart
  first : s.coord.firstRound = true
  clients : s.clients = []
  reg : s.coord.c.clients = ∅
  begC : s.coord.c.beginningCommMap = ∅
  ped : validPoint Q s.coord.c.pedersen.GT ∧ validPoint Q s.coord.c.pedersen.HT
  srv : ∀ v ∈ s.servers, v.roundkey ≠ 0 ∧ v.keyMap = ∅
  net : ∀ p ∈ s.net, p.msg.isCtrl = true → p.msg.isSetup = true

/-! ### maps -/

theorem fillMap_cases {K V : Type} [DecidableEq K] (m : GoMap K V) (l : List (K × V)) {k : K} {v : V}
    (h : (fillMap m l).lookup k = some v) : (k, v) ∈ l ∨ (k ∉ l.map Prod.fst ∧ m.lookup k = some v) := by
  induction l generalizing m with
  | nil => exact Or.inr ⟨by simp, h⟩
  | cons p l ih =>
    rw [fillMap_cons] at h
    rcases ih _ h with h1 | ⟨h1, h2⟩
    · exact Or.inl (List.mem_cons_of_mem _ h1)
    · by_cases hk : k = p.1
      · subst hk
        rw [AList.lookup_insert] at h2
        left
        rw [← Option.some.inj h2]
        simp
      · rw [AList.lookup_insert_ne hk] at h2
        exact Or.inr ⟨by simp only [List.map_cons, List.mem_cons, not_or]; exact ⟨hk, h1⟩, h2⟩

theorem fillMap_isSome {K V : Type} [DecidableEq K] (m : GoMap K V) (l : List (K × V)) {k : K}
    (h : k ∈ l.map Prod.fst ∨ (m.lookup k).isSome = true) : ((fillMap m l).lookup k).isSome = true := by
  induction l generalizing m with
  | nil =>
    rcases h with h | h
    · simp at h
    · exact h
  | cons p l ih =>
    rw [fillMap_cons]
    apply ih
    by_cases hk : k = p.1
    · subst hk; right; rw [AList.lookup_insert]; rfl
    · rcases h with h | h
      · simp only [List.map_cons, List.mem_cons] at h
        exact Or.inl (h.resolve_left hk)
      · right; rwa [AList.lookup_insert_ne hk]

/-- an iteration over a map with known contents -/
theorem iter_perm_of_matches {m : GoMap (ZMod P) (ZMod P)} {l : List (ZMod P × ZMod P)} (h : Matches m l)
    (hn : (l.map Prod.fst).Nodup) (it : Iter) : (GoMap.iter m it).Perm l := by
  rw [List.perm_ext_iff_of_nodup (iter_nodup _ _) (List.Nodup.of_map _ hn)]
  rintro ⟨k, v⟩
  rw [mem_iter]
  exact h k v

theorem matches_perm {m : GoMap (ZMod P) (ZMod P)} {l l' : List (ZMod P × ZMod P)} (h : Matches m l) (hp : l.Perm l') :
    Matches m l' := fun k v => (h k v).trans hp.mem_iff

theorem matches_fill {l l' : List (ZMod P × ZMod P)} (hn : (l'.map Prod.fst).Nodup) (hp : l.Perm l') :
    Matches (fillMap ∅ l) l' := by
  intro k v
  rw [fillMap_lookup_iff l ((hp.map _).nodup_iff.2 hn)]
  exact hp.mem_iff

theorem idOn_fill (l : List (ZMod P × ZMod P)) (hn : (l.map Prod.fst).Nodup) :
    IdOn (fillMap ∅ (l.map fun p => (p.1, p.1))) (fillMap ∅ l) := by
  intro k v h
  rw [fillMap_lookup_iff l hn] at h
  have hn' : ((l.map fun p => (p.1, p.1)).map Prod.fst).Nodup := by rw [List.map_map]; exact hn
  rw [fillMap_lookup_iff _ hn']
  exact List.mem_map.2 ⟨(k, v), h, rfl⟩

/-- encoding the keys of an iteration -/
theorem encPts_iter {env : NetEnv P Q} {K C : GoMap (ZMod P) (ZMod P)} (h : IdOn K C) {it : Iter} {keys : List (ZMod P)}
    (he : env.encPts ((GoMap.iter C it).map fun e => K.lookup e.1) = some keys) :
    keys = (GoMap.iter C it).map Prod.fst := by
  have : ((GoMap.iter C it).map fun e => K.lookup e.1) = ((GoMap.iter C it).map Prod.fst).map some := by
    rw [List.map_map]
    refine List.map_congr_left ?_
    rintro ⟨k, v⟩ hkv
    exact h k v ((mem_iter _ _ _ _).1 hkv)
  rw [this, env.encPts_some] at he
  exact (Option.some.inj he).symm

/-! ### commitments -/

section comm
variable [Fact P.Prime] [Fact Q.Prime]

theorem Acct.comm_pw {b : PedersenBase P} (a : Acct P Q) (E : ZMod Q) :
    pw (a.comm b) E = a.comm { GT := pw b.GT E, HT := pw b.HT E } := by
  simp only [Acct.comm, PedersenBase.commitWithR, pAdd]
  rw [mul_pw, pw_comm b.GT, pw_comm b.HT]

theorem Acct.valid_comm {b : PedersenBase P} (hG : validPoint Q b.GT) (hH : validPoint Q b.HT) (a : Acct P Q) :
    validPoint Q (a.comm b) := validPoint_mul (validPoint_pw hG _) (validPoint_pw hH _)

theorem Acct.comm_add {b : PedersenBase P} (hG : validPoint Q b.GT) (hH : validPoint Q b.HT) (a : Acct P Q) (d : Int)
    (r : ZMod Q) : a.comm b * b.commitWithR (d : ZMod Q) r = Acct.comm b { a with rep := a.rep + d, R := a.R + r } := by
  simp only [Acct.comm, PedersenBase.commitWithR, pAdd]
  push_cast
  rw [pw_add hG.2, pw_add hH.2]
  ring

/-- re-keying and re-randomising a table -/
theorem rekey_rows {b : PedersenBase P} {tab : List (Acct P Q)}
    (hv : ∀ a ∈ tab, validPoint Q a.key) (X x E : ZMod Q) :
    rekey x E (tab.map (Acct.row X b)) = tab.map (Acct.row (X * x) { GT := pw b.GT E, HT := pw b.HT E }) := by
  unfold rekey
  rw [List.map_map]
  refine List.map_congr_left ?_
  intro a ha
  simp only [Function.comp, Acct.row, Prod.mk.injEq]
  exact ⟨(pw_mul (hv a ha).2 _ _).symm, Acct.comm_pw a E⟩

theorem rows_keys_nodup {tab : List (Acct P Q)} (hv : ∀ a ∈ tab, validPoint Q a.key) (hn : (keysOf tab).Nodup)
    {X : ZMod Q} (hX : X ≠ 0) (b : PedersenBase P) : ((tab.map (Acct.row X b)).map Prod.fst).Nodup := by
  rw [List.map_map]
  have : (Prod.fst ∘ Acct.row X b) = (fun y => pw y X) ∘ Acct.key := rfl
  rw [this, ← List.map_map]
  exact nodup_map_pw hX (by
    intro p hp
    obtain ⟨a, ha, rfl⟩ := List.mem_map.1 hp
    exact hv a ha) hn

/-- two accounts with the same pseudonym are the same -/
theorem acct_eq_of_nym {book : List (Acct P Q)} (hv : ∀ a ∈ book, validPoint Q a.key) (hn : (keysOf book).Nodup)
    {X : ZMod Q} (hX : X ≠ 0) {a b : Acct P Q} (ha : a ∈ book) (hb : b ∈ book) (h : pw a.key X = pw b.key X) : a = b :=
  List.inj_on_of_nodup_map hn ha hb (pw_base_inj hX (hv a ha).2 (hv b hb).2 h)

theorem TableOK.keys {t : TableMsg P Q} {X : ZMod Q} {tab : List (Acct P Q)} (h : TableOK t X tab) :
    t.keys.Perm (tab.map fun a => pw a.key X) := by
  have h1 : t.keys = t.table.map Prod.fst := (List.map_fst_zip (le_of_eq h.sq)).symm
  have h2 := h.table.map Prod.fst
  rw [List.map_map] at h2
  rw [h1]
  exact h2

end comm

/-! ### round keys along the chain -/

section chain
variable [Fact P.Prime] [Fact Q.Prime]

theorem View.X_zero (V : View P Q) : V.X 0 = 1 := by simp [View.X]

theorem View.X_succ {V : View P Q} {j : ℕ} {s : Addr} (h : V.L[j]? = some s) : V.X (j + 1) = V.X j * V.rk s := by
  unfold View.X
  rw [List.take_add_one, h]
  simp

theorem View.X_congr {V V' : View P Q} {j : ℕ} (hL : V'.L = V.L) (h : ∀ a ∈ V.L.take j, V'.rk a = V.rk a) :
    V'.X j = V.X j := by
  unfold View.X
  rw [hL, List.map_congr_left h]

theorem SvP.rk_ne {V : View P Q} {Pr : SrvTbl P → Prop} (h : SvP V Pr) {a : Addr} (ha : a ∈ V.L) : V.rk a ≠ 0 := by
  obtain ⟨s, T, hs, hr, -⟩ := h a ha
  unfold View.rk
  rw [hs]; exact hr

theorem SvP.X_ne {V : View P Q} {Pr : SrvTbl P → Prop} (h : SvP V Pr) (j : ℕ) : V.X j ≠ 0 := by
  unfold View.X
  apply List.prod_ne_zero
  intro h0
  obtain ⟨a, ha, h0⟩ := List.mem_map.1 h0
  exact h.rk_ne (List.mem_of_mem_take ha) h0

theorem SvP.sane {V : View P Q} {Pr : SrvTbl P → Prop} (h : SvP V Pr) {a : Addr} (ha : a ∈ V.L) : Sane (V.km a) (V.rk a) := by
  obtain ⟨s, T, hs, -, hsn, -⟩ := h a ha
  unfold View.km View.rk
  rw [hs]; exact hsn

/-- a server that knows a key finds its predecessor -/
theorem Knows_pre {V : View P Q} {Pr : SrvTbl P → Prop} (h : SvP V Pr) {j : ℕ} {a : Acct P Q} (hk : V.Knows (j + 1) a)
    (hv : validPoint Q a.key) {s : Addr} (hs : V.L[j]? = some s) :
    (V.km s).lookup (pw a.key (V.X (j + 1))) = some (pw a.key (V.X j)) := by
  obtain ⟨b, hb⟩ := Option.isSome_iff_exists.1 (hk j (Nat.lt_succ_self j) s hs)
  have hsm := List.mem_of_getElem? hs
  obtain ⟨hbv, he⟩ := h.sane hsm _ _ hb
  rw [hb]
  congr 1
  rw [View.X_succ hs, pw_mul hv.2] at he
  exact (pw_base_inj (h.rk_ne hsm) (validPoint_pw hv _).2 hbv.2 he).symm

theorem Knows_le {V : View P Q} {i j : ℕ} (h : i ≤ j) {a : Acct P Q} (hk : V.Knows j a) : V.Knows i a :=
  fun l hl s hs => hk l (lt_of_lt_of_le hl h) s hs

/-- knowledge grows -/
theorem Knows_mono {V V' : View P Q} (hL : V'.L = V.L) {j : ℕ} {a : Acct P Q} (hX : ∀ i ≤ j, V'.X i = V.X i)
    (hkm : ∀ i < j, ∀ s, V.L[i]? = some s → ∀ y, ((V.km s).lookup y).isSome = true → ((V'.km s).lookup y).isSome = true)
    (hk : V.Knows j a) : V'.Knows j a := by
  intro i hi s hs
  rw [hL] at hs
  rw [hX (i + 1) hi]
  exact hkm i hi s hs _ (hk i hi s hs)

end chain
end ZRep
