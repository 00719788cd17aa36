/-
Property C08: configuration files.
-/
import Verif.Model.Config
import Mathlib.Tactic.Common

namespace ZRep

namespace Spec

/-- a definition `key=value` where neither part contains '=' -/
def WellFormedDef (d : List Char × List Char) : Prop := '=' ∉ d.1 ∧ '=' ∉ d.2

/-- the text of a definition -/
def defLine (d : List Char × List Char) : List Char := d.1 ++ '=' :: d.2

/-- value of the last definition of `k` -/
def lastDef (k : List Char) : List (List Char × List Char) → Option (List Char)
  | [] => none
  | d :: ds => match lastDef k ds with
    | some v => some v
    | none => if d.1 = k then some d.2 else none

end Spec

open Spec

theorem splitEq_no_eq (v : List Char) (h : '=' ∉ v) : splitEq v = [v] := by
  induction v with
  | nil => rfl
  | cons c cs ih =>
    have hc : c ≠ '=' := fun e => h (by simp [e])
    have := ih (fun e => h (List.mem_cons_of_mem _ e))
    simp [splitEq, hc, this]

theorem splitEq_append (k rest : List Char) (h : '=' ∉ k) :
    splitEq (k ++ '=' :: rest) = k :: splitEq rest := by
  induction k with
  | nil => simp [splitEq]
  | cons c cs ih =>
    have hc : c ≠ '=' := fun e => h (by simp [e])
    have := ih (fun e => h (List.mem_cons_of_mem _ e))
    simp [splitEq, hc, this]

theorem readLine_def (cfg : Config) (d : List Char × List Char) (h : WellFormedDef d) :
    readLine cfg (defLine d) = some (Function.update cfg d.1 (some d.2)) := by
  unfold readLine defLine
  rw [splitEq_append _ _ h.1, splitEq_no_eq _ h.2]

theorem readLines_defs (ds : List (List Char × List Char)) (h : ∀ d ∈ ds, WellFormedDef d)
    (cfg : Config) :
    ∃ c, (ds.map defLine).foldlM readLine cfg = some c ∧
      ∀ k, c k = (lastDef k ds <|> cfg k) := by
  induction ds generalizing cfg with
  | nil => exact ⟨cfg, rfl, fun k => by simp [lastDef]⟩
  | cons d ds ih =>
    obtain ⟨c, hc, hk⟩ := ih (fun x hx => h x (List.mem_cons_of_mem _ hx))
      (Function.update cfg d.1 (some d.2))
    refine ⟨c, ?_, ?_⟩
    · rw [List.map_cons, List.foldlM_cons, readLine_def _ _ (h d List.mem_cons_self)]
      exact hc
    · intro k
      rw [hk k]
      simp only [lastDef]
      rcases lastDef k ds with _ | v
      · by_cases e : d.1 = k
        · subst e; simp
        · simp [e, Function.update_of_ne (Ne.symm e)]
      · simp

theorem lastDef_append (k : List Char) (a b : List (List Char × List Char)) :
    lastDef k (a ++ b) = (lastDef k b <|> lastDef k a) := by
  induction a with
  | nil => simp [lastDef]
  | cons d a ih =>
    simp only [List.cons_append, lastDef, ih]
    rcases lastDef k b with _ | v
    · simp
    · simp

namespace Props

/-- The definitions of a file; a file that does not exist defines nothing. -/
def defsOf (file : Option (List (List Char × List Char))) : List (List Char × List Char) := file.getD []

theorem readFile_defs (file : Option (List (List Char × List Char))) (h : ∀ d ∈ defsOf file, WellFormedDef d)
    (cfg : Config) : ∃ c, readConfigFile cfg (file.map (·.map defLine)) = some c ∧
      ∀ k, c k = (lastDef k (defsOf file) <|> cfg k) := by
  cases file with
  | none => exact ⟨cfg, rfl, fun k => by simp [defsOf, lastDef]⟩
  | some l => exact readLines_defs l h cfg

/-- C08: ReadConfig on well-formed files gives every key the value of its last definition,
local.properties counting after conn.properties (so it overrides it). Either file may be missing. -/
theorem C08_read_config (conn loc : Option (List (List Char × List Char)))
    (h1 : ∀ d ∈ defsOf conn, WellFormedDef d) (h2 : ∀ d ∈ defsOf loc, WellFormedDef d) :
    ∃ cfg, readConfig (conn.map (·.map defLine)) (loc.map (·.map defLine)) = some cfg ∧
      ∀ k, cfg k = lastDef k (defsOf conn ++ defsOf loc) := by
  obtain ⟨c1, e1, k1⟩ := readFile_defs conn h1 (fun _ => none)
  obtain ⟨c2, e2, k2⟩ := readFile_defs loc h2 c1
  refine ⟨c2, ?_, ?_⟩
  · unfold readConfig
    simp only [e1, Option.bind_eq_bind, Option.bind_some, e2]
  · intro k
    rw [k2, k1, lastDef_append]
    simp

/-- C08: GetParameter before any ReadConfig gives conn.properties precedence, and "" for an
unknown key; after ReadConfig it returns what ReadConfig loaded. -/
theorem C08_get_parameter (conn loc : Option (List (List Char × List Char)))
    (h1 : ∀ d ∈ defsOf conn, WellFormedDef d) (h2 : ∀ d ∈ defsOf loc, WellFormedDef d) (k : List Char)
    (loaded : Config) :
    getParameter none (conn.map (·.map defLine)) (loc.map (·.map defLine)) k
      = some ((lastDef k (defsOf loc ++ defsOf conn)).getD []) ∧
    getParameter (some loaded) (conn.map (·.map defLine)) (loc.map (·.map defLine)) k
      = some ((loaded k).getD []) := by
  obtain ⟨c1, e1, k1⟩ := readFile_defs loc h2 (fun _ => none)
  obtain ⟨c2, e2, k2⟩ := readFile_defs conn h1 c1
  constructor
  · unfold getParameter
    simp only [e1, Option.bind_eq_bind, Option.bind_some, e2]
    rw [k2, k1, lastDef_append]
    simp
  · rfl

/-- C08: a line without '=' crashes the process, whatever comes before and after it. -/
theorem C08_line_without_equals_panics (pre post : List (List Char)) (line : List Char)
    (h : '=' ∉ line) (loc : Option (List (List Char))) :
    readConfig (some (pre ++ line :: post)) loc = none := by
  have : ∀ cfg, (pre ++ line :: post).foldlM readLine cfg = none := by
    intro cfg
    rw [List.foldlM_append]
    rcases pre.foldlM readLine cfg with _ | c
    · rfl
    · simp only [Option.bind_eq_bind, Option.bind_some, List.foldlM_cons]
      have : readLine c line = none := by unfold readLine; rw [splitEq_no_eq _ h]
      rw [this]; rfl
  unfold readConfig readConfigFile
  simp [this]

/-- C08: a value containing '=' is silently cut at that sign. -/
theorem C08_value_truncated (cfg : Config) (k v rest : List Char) (hk : '=' ∉ k) (hv : '=' ∉ v) :
    readLine cfg (k ++ '=' :: (v ++ '=' :: rest)) = some (Function.update cfg k (some v)) := by
  unfold readLine
  rw [splitEq_append _ _ hk, splitEq_append _ _ hv]

example : ∃ cfg, readConfig (some ["port=1".toList, "port=2".toList, "host=a".toList])
    (some ["host=b".toList]) = some cfg ∧ cfg "port".toList = some "2".toList ∧
    cfg "host".toList = some "b".toList := ⟨_, rfl, by decide, by decide⟩

end Props
end ZRep
