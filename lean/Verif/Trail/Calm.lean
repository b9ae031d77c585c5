import Verif.Trail.Text

/-!
# Blanks in a row

Two blanks in a row are written only at the beginning of a line.  The argument is the same as for the ends of lines, with
the strictest machine: texts have no two blanks in a row, and they do not begin with a blank after a blank, except for
single blanks, which the printer drops there.
-/

namespace Afmt

/-- No two blanks in a row, except at the beginning of a line; `b` says that only blanks precede on the line. -/
def calm (b : Bool) : Str → Bool
  | [] => true
  | c :: s =>
    if c == '\n' then calm true s
    else if c == ' ' then (b || !(s.head? == some ' ')) && calm b s
    else calm false s

namespace Trail
open Afmt.Lines (Sym Res Ress syms symss Silent pr_ress flush_pend flush_none putText_pend)

theorem calm_up : ∀ {b : Bool} {s : Str}, calm false s = true → calm b s = true
  | b, [], _ => rfl
  | b, c :: s, h => by
    rw [calm] at h ⊢
    split
    · rename_i hc; rw [if_pos hc] at h; exact h
    · rename_i hc
      rw [if_neg hc] at h
      split
      · rename_i hc'
        rw [if_pos hc', Bool.and_eq_true] at h
        rw [Bool.and_eq_true]
        refine ⟨?_, calm_up h.2⟩
        have := h.1
        rw [Bool.false_or] at this
        rw [this, Bool.or_true]
      · rename_i hc'
        rw [if_neg hc'] at h; exact h

theorem calm_append : ∀ {b : Bool} {x y : Str}, calm b x = true → calm false y = true → (endsWithSpace x = true → lead y = false) →
    calm b (x ++ y) = true
  | b, [], y, _, h, _ => calm_up h
  | b, [c], y, h, h2, h3 => by
    show calm b (c :: y) = true
    rw [calm]
    split
    · exact calm_up h2
    · split
      · rename_i hc
        have := h3 (by simpa [endsWithSpace] using hc)
        unfold lead at this
        rw [this, Bool.not_false, Bool.or_true, Bool.true_and]
        exact calm_up h2
      · exact h2
  | b, c :: d :: x, y, h, h2, h3 => by
    rw [calm] at h
    show calm b (c :: (d :: x ++ y)) = true
    have h3' : endsWithSpace (d :: x) = true → lead y = false := fun he => h3 (by
      unfold endsWithSpace at *; rw [List.getLast?_cons_cons]; exact he)
    rw [calm]
    split
    · rename_i hc; rw [if_pos hc] at h; exact calm_append h h2 h3'
    · rename_i hc
      rw [if_neg hc] at h
      split
      · rename_i hc'
        rw [if_pos hc', Bool.and_eq_true] at h
        rw [Bool.and_eq_true]
        exact ⟨h.1, calm_append h.2 h2 h3'⟩
      · rename_i hc'
        rw [if_neg hc'] at h; exact calm_append h h2 h3'

theorem calm_spaces : ∀ n, calm true (spaces n) = true
  | 0 => rfl
  | n + 1 => by
    have := calm_spaces n
    simp only [spaces, List.replicate_succ] at this ⊢
    rw [calm]
    simpa using this

theorem calm_line (n : Nat) : calm false ('\n' :: spaces n) = true := by
  rw [calm]; exact calm_spaces n

theorem calm_pair : ∀ {b : Bool} {s : Str}, pair s = false → calm b s = true
  | b, [], _ => rfl
  | b, [c], _ => by
    rw [calm]
    split
    · rfl
    · split <;> simp [calm]
  | b, c :: d :: s, h => by
    rw [pair, Bool.or_eq_false_iff] at h
    rw [calm]
    split
    · exact calm_pair h.2
    · split
      · rename_i hc
        rw [hc, Bool.true_and] at h
        rw [Bool.and_eq_true]
        refine ⟨?_, calm_pair h.2⟩
        have : ((d :: s).head? == some ' ') = false := by simpa using h.1
        rw [this]; simp
      · exact calm_pair h.2

/-- The abstract state describes the blanks of the printer state. -/
def Calm (a : St) (st : PSt) : Prop :=
  match a with
  | .N => calm true st.out = true ∧ endsWithSpace st.out = false ∧ st.pend = none
  | .M => calm true st.out = true ∧ endsWithSpace st.out = false
  | .bad => False
  | _ => calm true st.out = true ∧ (st.pend ≠ none → endsWithSpace st.out = false)

theorem calm_out {a : St} {st : PSt} (h : Calm a st) : calm true st.out = true := by
  cases a with
  | bad => exact h.elim
  | _ => exact h.1

theorem calm_flush {a : St} {st : PSt} (h : Calm a st) : Calm (fl a) st.flush := by
  cases hp : st.pend with
  | none =>
    rw [flush_none hp]
    cases a with
    | M => exact ⟨h.1, fun hn => absurd hp hn⟩
    | _ => exact h
  | some i =>
    have key : calm true st.out = true ∧ (st.pend ≠ none → endsWithSpace st.out = false) →
        calm true st.flush.out = true ∧ (st.flush.pend ≠ none → endsWithSpace st.flush.out = false) := by
      intro h
      refine ⟨?_, fun hn => absurd (flush_pend st) hn⟩
      simp only [PSt.flush, hp]
      exact calm_append h.1 (calm_line i) (fun _ => rfl)
    cases a with
    | N => rw [h.2.2] at hp; cases hp
    | bad => exact h
    | M => exact key ⟨h.1, fun _ => h.2⟩
    | B => exact key h
    | L => exact key h

theorem ends_space_append {a b : Str} (hb : b ≠ []) : endsWithSpace (a ++ b) = endsWithSpace b := by
  unfold endsWithSpace
  rw [List.getLast?_append]
  cases h : b.getLast? with
  | none => exact absurd (List.getLast?_eq_none_iff.1 h) hb
  | some c => rfl

/-- A text. -/
theorem calm_text {a : St} {st : PSt} (h : Calm a st) (s : Str) (n : Nat) (hb : @tx Gate.strict a s ≠ .bad) :
    Calm (@tx Gate.strict a s) (st.flush.putText s n) := by
  have hf := calm_flush h
  have ha : a ≠ .bad := by rintro rfl; exact hb rfl
  cases hs : s with
  | nil =>
    have h1 : @tx Gate.strict a [] = fl a := by rw [@tx_of Gate.strict a ha]; rfl
    rw [h1]
    have h2 : (st.flush.putText [] n) = { st.flush with col := st.flush.col + n } := by
      unfold PSt.putText
      rw [if_neg (by rintro ⟨h, _⟩; cases h), List.append_nil]
    rw [h2]
    cases a <;> exact hf
  | cons c t =>
    rw [hs] at hb
    rw [@tx_of Gate.strict a ha, if_neg (show ¬ List.isEmpty (c :: t) = true by simp)] at hb ⊢
    split
    · rename_i hc
      rw [Bool.and_eq_true, Bool.and_eq_true] at hc
      have hp : pair (c :: t) = false := by
        have : (!pair (c :: t)) = true := (Bool.and_eq_true _ _ ▸ hc.2).1
        simpa using this
      have hfi : @fine Gate.strict a (c :: t) = true := (Bool.and_eq_true _ _ ▸ hc.2).2
      have hpend : (st.flush.putText (c :: t) n).pend = none := by rw [putText_pend, flush_pend]
      -- the text may be appended if the output does not end with a blank or the text does not begin with one
      have hput : ¬ (c :: t = [' '] ∧ endsWithSpace st.flush.out = true) → calm true (st.flush.out ++ c :: t) = true := by
        intro hn
        refine calm_append (calm_out hf) (calm_pair hp) (fun he => ?_)
        cases hl : lead (c :: t) with
        | false => rfl
        | true =>
          exfalso
          cases a with
          | bad => exact ha rfl
          | N => rw [hf.2.1] at he; cases he
          | M =>
            have : (!lead (c :: t) || c :: t == [' ']) = true := hfi
            rw [hl, Bool.not_true, Bool.false_or] at this
            exact hn ⟨by simpa using this, he⟩
          | B =>
            have : (!lead (c :: t) || c :: t == [' ']) = true := hfi
            rw [hl, Bool.not_true, Bool.false_or] at this
            exact hn ⟨by simpa using this, he⟩
          | L =>
            have : (!lead (c :: t)) = true := hfi
            rw [hl] at this
            cases this
      split
      · refine ⟨?_, fun hn => absurd hpend hn⟩
        unfold PSt.putText
        split
        · exact calm_out hf
        · rename_i hn; exact hput hn
      · rename_i he
        have hne : c :: t ≠ [' '] := by
          intro h
          rw [h] at he
          exact he (by decide)
        have hout : (st.flush.putText (c :: t) n).out = st.flush.out ++ c :: t := by
          unfold PSt.putText
          rw [if_neg (fun h => hne h.1)]
        refine ⟨by rw [hout]; exact hput (fun h => hne h.1), ?_, hpend⟩
        rw [hout, ends_space_append (by simp)]
        exact ends_blank (by simpa using he)
    · rename_i hc
      rw [if_neg hc] at hb
      exact absurd rfl hb

/-- As long as the strictest machine does not go bad, it describes the blanks of the printer state. -/
theorem run_calm {xs : List Sym} {ops : List Op} (h : Ress xs ops) : ∀ {a : St} {st : PSt}, Calm a st →
    @run Gate.strict a xs ≠ .bad → Calm (@run Gate.strict a xs) (runOps ops st) := by
  induction h with
  | nil => intro a st h _; exact h
  | @cons x xs o os hx hr ih =>
    intro a st h1 h3
    rw [runOps_append]
    have e : @run Gate.strict a (x :: xs) = @run Gate.strict (@step Gate.strict a x) xs := rfl
    rw [e] at h3 ⊢
    have hb : @step Gate.strict a x ≠ .bad := by
      intro e; rw [e, @run_bad Gate.strict] at h3; exact h3 rfl
    refine ih ?_ h3
    cases hx with
    | txt s n => exact calm_text h1 s n hb
    | flush => exact calm_flush h1
    | pend i =>
      have := brk_inv hb; subst this
      exact ⟨h1.1, fun _ => h1.2.1⟩
    | space =>
      have := brk_inv hb; subst this
      refine ⟨?_, fun hn => absurd h1.2.2 hn⟩
      exact calm_append h1.1 (by decide) (fun h => by rw [h1.2.1] at h; cases h)
    | pendm i =>
      have := mb_inv hb; subst this
      exact ⟨h1.1, h1.2.1⟩
    | none =>
      have := mb_inv hb; subst this
      exact ⟨h1.1, h1.2.1⟩
    | blank i =>
      have := brl_inv hb; subst this
      refine ⟨?_, fun _ => ?_⟩
      · exact calm_append h1.1 (by decide) (fun _ => rfl)
      · show endsWithSpace (st.out ++ ['\n']) = false
        rw [ends_space_append (by simp)]; decide
    | line i =>
      have := brl_inv hb; subst this
      exact ⟨h1.1, fun _ => h1.2.1⟩

theorem layout_calm {cm : CMap} (hs : Silent cm) {k : Nat} {p : Prog} {d : Doc} {l : List Comment}
    (h : p.build k cm = .ok (d, l)) (w : Nat) (hr : @run Gate.strict .N (syms p) ≠ .bad) : calm true (layout w d) = true := by
  obtain ⟨ops, h1, h2⟩ := pr_ress hs k w p d l h 0 false [] PSt.init
  unfold layout
  rw [h1]
  exact calm_out (calm_flush (run_calm h2 (a := .N) (st := PSt.init) ⟨rfl, rfl, rfl⟩ hr))

end Trail
end Afmt
