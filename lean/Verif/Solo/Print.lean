import Verif.PropsPrinter
import Verif.Builder

/-!
# Documents between hard line breaks are laid out independently
-/

namespace Afmt
namespace Solo

/-! ### What comes afterwards -/

/-- Look-ahead cannot tell the two continuations apart. -/
def SameRest (a b : List Chunk) : Prop := ∀ r, (scanChunks false a r).answer = (scanChunks false b r).answer

theorem SameRest.append {a b : List Chunk} (h : SameRest a b) (cs : List Chunk) : SameRest (cs ++ a) (cs ++ b) := by
  intro r
  rw [scanChunks_append, scanChunks_append]
  cases scanChunks false cs r with
  | stop x => rfl
  | cont r' => exact h r'

mutual
theorem pr_rest (w : Nat) {a b : List Chunk} (h : SameRest a b) : ∀ (d : Doc) (i : Nat) (fl : Bool) (st : PSt), pr w d i fl a st = pr w d i fl b st
  | .newline, i, fl, st => by simp only [pr]
  | .newlineWithNoIndent, i, fl, st => by simp only [pr]
  | .softline, i, fl, st => by simp only [pr]
  | .maybeline, i, fl, st => by simp only [pr]
  | .forceBreak, i, fl, st => by simp only [pr]
  | .text s n, i, fl, st => by simp only [pr]
  | .flat d, i, fl, st => by simp only [pr, pr_rest w h d]
  | .indent n d, i, fl, st => by simp only [pr, pr_rest w h d]
  | .dedent n d, i, fl, st => by simp only [pr, pr_rest w h d]
  | .concat ds, i, fl, st => by simp only [pr, prs_rest w h ds]
  | .choice x y, i, fl, st => by
    have hf : ∀ rem, fitsS rem { doc := x, indent := i, flat := fl } a = fitsS rem { doc := x, indent := i, flat := fl } b := by
      intro rem
      unfold fitsS
      cases scan true x fl rem with
      | stop _ => rfl
      | cont r => exact h r
    simp only [pr, pr_rest w h x, pr_rest w h y, hf]
theorem prs_rest (w : Nat) {a b : List Chunk} (h : SameRest a b) : ∀ (ds : List Doc) (i : Nat) (fl : Bool) (st : PSt), prs w ds i fl a st = prs w ds i fl b st
  | [], i, fl, st => by simp only [prs]
  | d :: ds, i, fl, st => by
    simp only [prs, prs_rest w h ds]
    rw [pr_rest w (h.append _) d]
end

/-- Look-ahead stops at once and is content. -/
def Stops (a : List Chunk) : Prop := ∀ r, (scanChunks false a r).answer = true

theorem Stops.same {a b : List Chunk} (ha : Stops a) (hb : Stops b) : SameRest a b := fun r => (ha r).trans (hb r).symm
theorem stops_nil : Stops [] := fun _ => rfl
theorem stops_nl (i : Nat) (fl : Bool) (cs : List Chunk) : Stops (⟨nl, i, fl⟩ :: cs) := fun _ => by simp only [scanChunks, nl, scan, Scan.answer]
theorem stops_empty (i : Nat) (fl : Bool) (cs : List Chunk) : Stops (⟨emptyNewLine, i, fl⟩ :: cs) :=
  fun _ => by simp only [scanChunks, emptyNewLine, scan, scans, Scan.answer]

/-! ### What comes before -/

/-- The state with more text before it. -/
def _root_.Afmt.PSt.after (o : Str) (st : PSt) : PSt := { st with out := o ++ st.out }

theorem after_flush (o : Str) (st : PSt) : (st.after o).flush = st.flush.after o := by
  obtain ⟨out, col, pend⟩ := st
  cases pend <;> simp [PSt.flush, PSt.after]

theorem after_space (o out : Str) : endsWithSpace (o ++ ['\n'] ++ out) = endsWithSpace out := by
  unfold endsWithSpace
  cases out with
  | nil => simp
  | cons c cs =>
    rw [List.getLast?_append]
    cases h : (c :: cs).getLast? with
    | none => simp at h
    | some x => rfl

theorem after_putText (o : Str) (st : PSt) (s : Str) (n : Nat) : (st.after (o ++ ['\n'])).putText s n = (st.putText s n).after (o ++ ['\n']) := by
  unfold PSt.putText
  simp only [PSt.after, after_space]
  split
  · rfl
  · simp

mutual
theorem pr_after (w : Nat) (o : Str) : ∀ (d : Doc) (i : Nat) (fl : Bool) (rest : List Chunk) (st : PSt),
    pr w d i fl rest (st.after (o ++ ['\n'])) = (pr w d i fl rest st).after (o ++ ['\n'])
  | .newline, i, fl, rest, st => by simp only [pr, PSt.after]
  | .newlineWithNoIndent, i, fl, rest, st => by simp only [pr, PSt.after, PSt.bareNewline, List.append_assoc]
  | .softline, i, fl, rest, st => by
    simp only [pr]
    split
    · simp only [PSt.putSpace, PSt.after, List.append_assoc]
    · simp only [PSt.after]
  | .maybeline, i, fl, rest, st => by
    simp only [pr]
    split
    · rfl
    · simp only [PSt.after]
  | .forceBreak, i, fl, rest, st => by simp only [pr]
  | .text s n, i, fl, rest, st => by simp only [pr, after_flush, after_putText]
  | .flat d, i, fl, rest, st => by simp only [pr, pr_after w o d]
  | .indent n d, i, fl, rest, st => by simp only [pr, pr_after w o d]
  | .dedent n d, i, fl, rest, st => by simp only [pr, pr_after w o d]
  | .concat ds, i, fl, rest, st => by simp only [pr, prs_after w o ds]
  | .choice x y, i, fl, rest, st => by
    have hc : (st.flush.after (o ++ ['\n'])).col = st.flush.col := rfl
    simp only [pr, after_flush, pr_after w o x, pr_after w o y, hc]
    split
    · rfl
    · split <;> rfl
theorem prs_after (w : Nat) (o : Str) : ∀ (ds : List Doc) (i : Nat) (fl : Bool) (rest : List Chunk) (st : PSt),
    prs w ds i fl rest (st.after (o ++ ['\n'])) = (prs w ds i fl rest st).after (o ++ ['\n'])
  | [], i, fl, rest, st => by simp only [prs]
  | d :: ds, i, fl, rest, st => by simp only [prs, pr_after w o d, prs_after w o ds]
end

/-! ### The first text after a line break -/

/-- Printing from the start has begun with white space. -/
def Bad (a : PSt) : Prop := (a.out = [] ∧ a.pend ≠ none) ∨ (∃ t, a.out = '\n' :: t) ∨ (∃ t, a.out = ' ' :: t)

theorem Bad.more {a b : PSt} (h : (∃ t, a.out = '\n' :: t) ∨ (∃ t, a.out = ' ' :: t)) (hb : ∃ t, b.out = a.out ++ t) : Bad b := by
  obtain ⟨t, hb⟩ := hb
  rcases h with ⟨s, h⟩ | ⟨s, h⟩
  · exact .inr (.inl ⟨s ++ t, by rw [hb, h]; rfl⟩)
  · exact .inr (.inr ⟨s ++ t, by rw [hb, h]; rfl⟩)

theorem Bad.flush {a : PSt} (h : a.out = [] ∧ a.pend ≠ none) : ∃ t, a.flush.out = '\n' :: t := by
  obtain ⟨out, col, pend⟩ := a
  cases pend with
  | none => exact absurd rfl h.2
  | some i => exact ⟨spaces i, by have h1 : out = [] := h.1; subst h1; rfl⟩

theorem Bad.run {a : PSt} (h : Bad a) (op : Op) : Bad (op.run a) := by
  rcases h with h | h
  · cases op with
    | pend i => exact .inl ⟨h.1, by simp [Op.run]⟩
    | bare => exact .inr (.inl ⟨[], by simp [Op.run, PSt.bareNewline, h.1]⟩)
    | space => exact .inr (.inr ⟨[], by simp [Op.run, PSt.putSpace, h.1]⟩)
    | text s n =>
      have h1 := Bad.flush h
      exact Bad.more (a := a.flush) (.inl h1) (by
        simp only [Op.run, PSt.putText]
        split
        · exact ⟨[], by simp⟩
        · exact ⟨s, rfl⟩)
    | flush => exact .inr (.inl (Bad.flush h))
  · exact Bad.more h (Op.run_out op a)

theorem Bad.runOps {a : PSt} (h : Bad a) (ops : List Op) : Bad (Afmt.runOps ops a) := by
  induction ops generalizing a with
  | nil => exact h
  | cons op ops ih => exact ih (h.run op)

theorem Bad.pr {a : PSt} (h : Bad a) (w : Nat) (d : Doc) (i : Nat) (fl : Bool) (rest : List Chunk) : Bad (pr w d i fl rest a) := by
  obtain ⟨ops, ho, _⟩ := pr_ops w d i fl rest a
  rw [ho]
  exact h.runOps ops

/-- A pending line break after `o`. -/
def pendAt (o : Str) (c : Nat) : PSt := ⟨o, c, some 0⟩

/-- Printing on a new line after `o` (first state) and printing from the start (second state). -/
def Rel (o : Str) (c : Nat) (x a : PSt) : Prop := (x = pendAt o c ∧ a = PSt.init) ∨ x = a.after (o ++ ['\n']) ∨ Bad a

theorem pendAt_flush (o : Str) (c : Nat) : (pendAt o c).flush = PSt.init.after (o ++ ['\n']) := by
  simp [pendAt, PSt.flush, PSt.after, PSt.init, spaces]

theorem init_flush : PSt.init.flush = PSt.init := rfl

mutual
theorem pr_rel (w : Nat) {o : Str} {c : Nat} : ∀ (d : Doc) (i : Nat) (fl : Bool) (rest : List Chunk) (x a : PSt), Rel o c x a →
    Rel o c (pr w d i fl rest x) (pr w d i fl rest a)
  | d, i, fl, rest, x, a, .inr (.inl h) => by subst h; rw [pr_after]; exact .inr (.inl rfl)
  | d, i, fl, rest, x, a, .inr (.inr h) => .inr (.inr (h.pr w d i fl rest))
  | .newline, i, fl, rest, _, _, .inl ⟨rfl, rfl⟩ => .inr (.inr (.inl ⟨by simp [pr, PSt.init], by simp [pr]⟩))
  | .newlineWithNoIndent, i, fl, rest, _, _, .inl ⟨rfl, rfl⟩ => .inr (.inr (.inr (.inl ⟨[], by simp [pr, PSt.bareNewline, PSt.init]⟩)))
  | .softline, i, fl, rest, _, _, .inl ⟨rfl, rfl⟩ => by
    cases fl
    · exact .inr (.inr (.inl ⟨by simp [pr, PSt.init], by simp [pr]⟩))
    · exact .inr (.inr (.inr (.inr ⟨[], by simp [pr, PSt.putSpace, PSt.init]⟩)))
  | .maybeline, i, fl, rest, _, _, .inl ⟨rfl, rfl⟩ => by
    cases fl
    · exact .inr (.inr (.inl ⟨by simp [pr, PSt.init], by simp [pr]⟩))
    · exact .inl ⟨by simp [pr], by simp [pr]⟩
  | .forceBreak, i, fl, rest, _, _, .inl ⟨rfl, rfl⟩ => .inl ⟨by simp [pr], by simp [pr]⟩
  | .text s n, i, fl, rest, _, _, .inl ⟨rfl, rfl⟩ => by
    simp only [pr, pendAt_flush, init_flush, after_putText]
    exact .inr (.inl rfl)
  | .flat d, i, fl, rest, _, _, .inl ⟨rfl, rfl⟩ => by simp only [pr]; exact pr_rel w d _ _ _ _ _ (.inl ⟨rfl, rfl⟩)
  | .indent n d, i, fl, rest, _, _, .inl ⟨rfl, rfl⟩ => by simp only [pr]; exact pr_rel w d _ _ _ _ _ (.inl ⟨rfl, rfl⟩)
  | .dedent n d, i, fl, rest, _, _, .inl ⟨rfl, rfl⟩ => by simp only [pr]; exact pr_rel w d _ _ _ _ _ (.inl ⟨rfl, rfl⟩)
  | .concat ds, i, fl, rest, _, _, .inl ⟨rfl, rfl⟩ => by simp only [pr]; exact prs_rel w ds _ _ _ _ _ (.inl ⟨rfl, rfl⟩)
  | .choice x y, i, fl, rest, _, _, .inl ⟨rfl, rfl⟩ => by
    have hc : (PSt.init.after (o ++ ['\n'])).col = PSt.init.col := rfl
    simp only [pr, pendAt_flush, init_flush, hc, pr_after]
    refine .inr (.inl ?_)
    split
    · rfl
    · split
      · rename_i hh; simp only [hh, if_true]
      · rename_i hh; simp only [hh, if_false]; simp
theorem prs_rel (w : Nat) {o : Str} {c : Nat} : ∀ (ds : List Doc) (i : Nat) (fl : Bool) (rest : List Chunk) (x a : PSt), Rel o c x a →
    Rel o c (prs w ds i fl rest x) (prs w ds i fl rest a)
  | [], i, fl, rest, x, a, h => by simp only [prs]; exact h
  | d :: ds, i, fl, rest, x, a, h => by simp only [prs]; exact prs_rel w ds _ _ _ _ _ (pr_rel w d _ _ _ _ _ h)
end

/-! ### Members of a body -/

/-- The text of a document printed alone, with the line break after it. -/
def alone (w : Nat) (d : Doc) : Str := (pr w d 0 false [] PSt.init).out ++ ['\n']

/-- The text does not begin with white space. -/
def Begins (s : Str) : Prop := ∃ c t, s = c :: t ∧ c ≠ '\n' ∧ c ≠ ' '

/-- The document begins with text. -/
def Fresh (w : Nat) (d : Doc) : Prop := Begins (alone w d) ∨ d.lead = some true

/-- The texts of the members one below the other, with an empty line where it is asked for. -/
def stack (w : Nat) : List (Bool × Doc) → Str
  | [] => []
  | [(_, d)] => alone w d
  | (b, d) :: ds => alone w d ++ (if b then ['\n'] else []) ++ stack w ds

/-- The documents of the members with the separators (src/doc_builder.rs 119-140). -/
def parts : List (Bool × Doc) → List Doc
  | [] => []
  | [(_, d)] => [d]
  | (b, d) :: ds => d :: (if b then emptyNewLine else nl) :: parts ds

/-- The state the members are printed from: the start of the file or after a line break. -/
inductive From : PSt → Str → Prop where
  | start : From PSt.init []
  | line (o : Str) (c : Nat) : From (pendAt o c) (o ++ ['\n'])

theorem from_alone {w : Nat} {x : PSt} {o : Str} (hx : From x o) {d : Doc} (hb : Fresh w d) {rest : List Chunk} (hr : Stops rest) :
    (pr w d 0 false rest x).out ++ ['\n'] = o ++ alone w d := by
  rw [pr_rest w (hr.same stops_nil) d]
  cases hx with
  | start => rfl
  | line o c =>
    have h := pr_rel w (o := o) (c := c) d 0 false [] _ _ (.inl ⟨rfl, rfl⟩)
    rcases hb with hb | hb
    rotate_left
    · rw [pr_solid w d 0 false [] _ hb, pendAt_flush, pr_after, alone, PSt.after, List.append_assoc]
    obtain ⟨ch, t, hb, h1, h2⟩ := hb
    rcases h with h | h | h
    · rw [alone, h.2] at hb
      simp only [PSt.init, List.nil_append, List.cons.injEq] at hb
      exact absurd hb.1.symm h1
    · rw [h, alone, PSt.after, List.append_assoc]
    · rw [alone] at hb
      rcases h with h | ⟨s, h⟩ | ⟨s, h⟩
      · rw [h.1] at hb
        simp only [List.nil_append, List.cons.injEq] at hb
        exact absurd hb.1.symm h1
      · rw [h] at hb
        simp only [List.cons_append, List.cons.injEq] at hb
        exact absurd hb.1.symm h1
      · rw [h] at hb
        simp only [List.cons_append, List.cons.injEq] at hb
        exact absurd hb.1.symm h2

theorem stack_out (w : Nat) : ∀ (ds : List (Bool × Doc)), ds ≠ [] → (∀ d ∈ ds, Fresh w d.2) → ∀ (x : PSt) (o : Str), From x o →
    ∀ (rest : List Chunk), Stops rest → (prs w (parts ds) 0 false rest x).out ++ ['\n'] = o ++ stack w ds
  | [], h, _, _, _, _, _, _ => absurd rfl h
  | [(b, d)], _, hb, x, o, hx, rest, hr => by
    simp only [parts, prs, List.map_nil, List.nil_append, stack]
    exact from_alone hx (hb _ (.head _)) hr
  | (b, d) :: e :: ds, _, hb, x, o, hx, rest, hr => by
    have ih := stack_out w (e :: ds) (by simp) (fun y hy => hb y (.tail _ hy))
    rw [parts]
    cases b with
    | false =>
      simp only [Bool.false_eq_true, if_false, prs, List.map_cons, List.cons_append, stack, List.append_nil]
      have h1 := from_alone (rest := ⟨nl, 0, false⟩ :: ((parts (e :: ds)).map (fun d => (⟨d, 0, false⟩ : Chunk)) ++ rest)) hx
        (hb _ (.head _)) (stops_nl 0 false _)
      generalize pr w d 0 false _ x = y at h1 ⊢
      have hl : ∀ r, pr w nl 0 false r y = pendAt y.out y.col := fun r => by simp only [nl, pr, pendAt]
      rw [hl, ih _ _ (.line y.out y.col) _ hr, h1, List.append_assoc]
    | true =>
      simp only [if_true, prs, List.map_cons, List.cons_append, stack]
      have h1 := from_alone (rest := ⟨emptyNewLine, 0, false⟩ :: ((parts (e :: ds)).map (fun d => (⟨d, 0, false⟩ : Chunk)) ++ rest)) hx
        (hb _ (.head _)) (stops_empty 0 false _)
      generalize pr w d 0 false _ x = y at h1 ⊢
      have hl : ∀ r, pr w emptyNewLine 0 false r y = pendAt (y.out ++ ['\n']) 0 := fun r => by
        simp only [emptyNewLine, pr, prs, pendAt, PSt.bareNewline]
      rw [hl, ih _ _ (.line _ 0) _ hr, h1]
      simp only [List.append_assoc]
    exact fun h => by cases h

end Solo
end Afmt
