import Verif.SoqlShow
import Verif.PropsTokens

/-!
# Property C41: printed SOQL conditions mean the same
-/

namespace Afmt
open Prog hiding items itemss
open Gram hiding items

/-- **C41.** Missing: a negation directly inside a negation, for which the property is false, see
`C41_double_negation_unreadable`.  Whatever a condition of a query prints, its code is a sequence of tokens that the grammar
of conditions accepts, and every way of reading these tokens is a condition that is true under the same truth
values of the comparisons as the condition in the source. -/
theorem C41_same_meaning_partial (cfg : Cfg) (fuel : Nat) (c : Cond Loc) (l : Loc) (p : Prog) (ss : List Str)
    (hc : CondAt cfg.cm c l) (ho : c.Ok) (hn : Prog.new cfg fuel .booleanExpression l = .ok p)
    (hs : codeRes (p.items cfg.cm) = some ss) :
    ∃ ts, Shown cfg ts ss ∧ (∃ c', Reads ts c') ∧
      ∀ c', Reads ts c' → ∀ v : Loc → Bool, Cond.eval v c' = Cond.eval v c := by
  obtain ⟨c', h1, h2⟩ := reads_pr c ho
  exact ⟨prTok c, show_cond c l fuel p ss hc hn ((codeRes_eq _ _).symm.trans hs), ⟨c', h1⟩, fun d hd v => by rw [reads_unique hd h1, h2 v]⟩

/-- `field = value`. -/
def exCmp (f v : String) : Node := exNode 0 "comparison_expression" 0 0 "" [
  exNode 0 "field_identifier" 0 0 "" [exLeaf "identifier" f 0], exLeaf "value_comparison_operator" "=" 0, exLeaf "int" v 0]

/-- `a = 1 AND (b = 2 OR (NOT c = 3) OR (d = 4 OR e = 5))`. -/
def exCond : Node := (numbered 1 (exNode 0 "and_expression" 0 0 "" [exCmp "a" "1", exTok 0 "AND" 0, exTok 0 "(" 0,
  exNode 0 "or_expression" 0 0 "" [exCmp "b" "2", exTok 0 "OR" 0, exTok 0 "(" 0,
    exNode 0 "not_expression" 0 0 "" [exTok 0 "NOT" 0, exCmp "c" "3"], exTok 0 ")" 0, exTok 0 "OR" 0, exTok 0 "(" 0,
    exNode 0 "or_expression" 0 0 "" [exCmp "d" "4", exTok 0 "OR" 0, exCmp "e" "5"], exTok 0 ")" 0], exTok 0 ")" 0])).1

/-- The pieces of code of an example. -/
def exPieces (n : Node) : Option (List String) :=
  match Prog.new (exCfg n) 20 .booleanExpression (Loc.ofRoot n) with
  | .ok p => (codeRes (p.items (exCfg n).cm)).map (·.map String.ofList)
  | .error _ => none

example : exPieces exCond = some ["a", " = ", "1", "AND ", "(", "b", " = ", "2", "OR ", "(", "NOT ", "c", " = ", "3", ")",
    "OR ", "d", " = ", "4", "OR ", "e", " = ", "5", ")"] := by decide +kernel

theorem calm_of {cm : CMap} {l : Loc} (h1 : (cm.get? l.id).all (·.dangling.isEmpty) = true)
    (h2 : (l.rightSiblings.find? (fun s => !s.extra)).all (fun s => s.kind != "," && s.kind != ";") = true) :
    CalmConn cm l := by
  refine ⟨fun b hb => ?_, fun s hs => ?_⟩
  · rw [hb] at h1; simpa using h1
  · rw [hs] at h2; simpa using h2

example : ∃ c, CondAt (exCfg exCond).cm c (Loc.ofRoot exCond) ∧ c.Ok := by
  refine ⟨.and [.cmp _, .or [.cmp _, .not (.cmp _), .or [.cmp _, .cmp _]]], ⟨rfl, calm_of (by decide +kernel)
    (by decide +kernel), ⟨rfl, rfl⟩, ⟨rfl, calm_of (by decide +kernel) (by decide +kernel), ⟨rfl, rfl⟩, ⟨rfl, calm_of
    (by decide +kernel) (by decide +kernel), _, rfl, ⟨rfl, rfl⟩⟩, ⟨rfl, calm_of (by decide +kernel) (by decide +kernel),
    ⟨rfl, rfl⟩, ⟨rfl, rfl⟩, trivial⟩, trivial⟩, trivial⟩, ?_⟩
  refine ⟨by decide, trivial, ⟨by decide, trivial, ⟨?_, trivial⟩, ⟨by decide, trivial, trivial, trivial⟩, trivial⟩, trivial⟩
  intro d h; cases h

/-- **C41 is false for double negation**: `NOT (NOT x)` always prints `NOT NOT x`, and these tokens cannot be read as a
condition at all. -/
theorem C41_double_negation_unreadable (cfg : Cfg) (fuel : Nat) (x l : Loc) (p : Prog) (ss : List Str)
    (hc : CondAt cfg.cm (.not (.not (.cmp x))) l) (hn : Prog.new cfg fuel .booleanExpression l = .ok p)
    (hs : codeRes (p.items cfg.cm) = some ss) :
    (∃ s fuel q, ss = "NOT ".toList :: "NOT ".toList :: s ∧ Prog.new cfg fuel .comparisonExpression x = .ok q ∧
      codeRes (q.items cfg.cm) = some s) ∧
    ∀ c', ¬ Reads [.not, .not, .atom x] c' := by
  constructor
  · have := show_cond _ l fuel p ss hc hn ((codeRes_eq _ _).symm.trans hs)
    simp only [prTok, bareNot, wrapTok, if_true] at this
    cases this with
    | not h => cases h with
      | not h => cases h with
        | atom h1 h2 h3 =>
          cases h3
          exact ⟨_, _, _, by rw [List.append_nil], h1, h2⟩
  · intro c' h
    have hop : ∀ ts (c : Cond Loc), ¬ ReadsOp (.not :: ts) c := by
      intro ts c h; cases h
    have hseq : ∀ op ts (cs : List (Cond Loc)), ¬ ReadsSeq op (.not :: ts) cs := by
      intro op ts cs h
      generalize e : CTok.not :: ts = us at h
      cases h with
      | one h => rw [← e] at h; exact hop _ _ h
      | cons h1 h2 =>
        rename_i us' _ _ _
        cases us' with
        | nil => cases h1
        | cons u us' =>
          simp only [List.cons_append, List.cons.injEq] at e
          rw [← e.1] at h1
          exact hop _ _ h1
    cases h with
    | and h _ => exact hseq _ _ _ h
    | or h _ => exact hseq _ _ _ h
    | not h => exact hop _ _ h
    | op h => exact hop _ _ h

/-- `NOT (NOT a = 1)`. -/
def exNotNot : Node := (numbered 1 (exNode 0 "not_expression" 0 0 "" [exTok 0 "NOT" 0, exTok 0 "(" 0,
  exNode 0 "not_expression" 0 0 "" [exTok 0 "NOT" 0, exCmp "a" "1"], exTok 0 ")" 0])).1

example : exPieces exNotNot = some ["NOT ", "NOT ", "a", " = ", "1"] := by decide +kernel
example : ∃ x, CondAt (exCfg exNotNot).cm (.not (.not (.cmp x))) (Loc.ofRoot exNotNot) :=
  ⟨_, rfl, calm_of (by decide +kernel) (by decide +kernel), _, rfl, rfl, calm_of (by decide +kernel) (by decide +kernel),
    _, rfl, rfl, rfl⟩

end Afmt
