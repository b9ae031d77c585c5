import Verif.Ends.Mach
import Verif.Trail.Calm

/-!
# Blanks in a row in programs with comments between members

The argument of `Verif.Trail.Calm` for the machine of `Verif.Ends.Mach`.  Directly after a line of a comment a line break is
pending, so a text there may begin with a blank: it follows the indentation.
-/

namespace Afmt.Ends
open Afmt.Notes (Sym Br Res Ress syms symss symss_append Roles pr_ress)
open Afmt.Lines (flush_pend flush_none putText_pend)
open Afmt.Trail (inner ends front lead pair Gate calm_up calm_append calm_spaces calm_line calm_pair ends_space_append ends_blank)

/-- The abstract state describes the blanks of the printer state. -/
def Calm (a : St) (st : PSt) : Prop :=
  match a with
  | .N => calm true st.out = true ∧ endsWithSpace st.out = false ∧ st.pend = none
  | .Q => calm true st.out = true ∧ endsWithSpace st.out = false ∧ st.pend ≠ none
  | .M => calm true st.out = true ∧ endsWithSpace st.out = false
  | .bad => False
  | _ => calm true st.out = true ∧ (st.pend ≠ none → endsWithSpace st.out = false)

theorem calm_out {a : St} {st : PSt} (h : Calm a st) : calm true st.out = true := by
  cases a with
  | bad => exact h.elim
  | _ => exact h.1

theorem calm_flush {a : St} {st : PSt} (h : Calm a st) : Calm (fl a) st.flush := by
  have key : calm true st.out = true ∧ (st.pend ≠ none → endsWithSpace st.out = false) →
      calm true st.flush.out = true ∧ (st.flush.pend ≠ none → endsWithSpace st.flush.out = false) := by
    intro h
    refine ⟨?_, fun hn => absurd (flush_pend st) hn⟩
    cases hp : st.pend with
    | none => rw [flush_none hp]; exact h.1
    | some i =>
      simp only [PSt.flush, hp]
      exact calm_append h.1 (calm_line i) (fun _ => rfl)
  cases a with
  | N => rw [flush_none h.2.2]; exact h
  | bad => exact h
  | Q => exact key ⟨h.1, fun _ => h.2.1⟩
  | M => exact key ⟨h.1, fun _ => h.2⟩
  | B => exact key h
  | L => exact key h

/-- What follows the indentation of a line may begin with a blank. -/
theorem calm_indent (n : Nat) {y : Str} (h : calm true y = true) : calm true (spaces n ++ y) = true := by
  induction n with
  | zero => exact h
  | succ n ih =>
    show calm true (' ' :: (spaces n ++ y)) = true
    rw [calm, if_neg (by decide), if_pos (by decide), ih]; rfl

theorem calm_newline : ∀ {b : Bool} {x z : Str}, calm b x = true → calm true z = true → calm b (x ++ '\n' :: z) = true
  | b, [], z, _, h => by rw [List.nil_append, calm, if_pos (by decide)]; exact h
  | b, c :: x, z, h, h2 => by
    rw [calm] at h
    show calm b (c :: (x ++ '\n' :: z)) = true
    rw [calm]
    split
    · rename_i hc; rw [if_pos hc] at h; exact calm_newline h h2
    · rename_i hc
      rw [if_neg hc] at h
      split
      · rename_i hc'
        rw [if_pos hc', Bool.and_eq_true] at h
        rw [Bool.and_eq_true]
        refine ⟨?_, calm_newline h.2 h2⟩
        cases x with
        | nil => simp
        | cons d x => exact h.1
      · rename_i hc'
        rw [if_neg hc'] at h; exact calm_newline h h2

/-- A text. -/
theorem calm_text {a : St} {st : PSt} (h : Calm a st) (s : Str) (n : Nat) (hb : @tx Gate.strict a s ≠ .bad) :
    Calm (@tx Gate.strict a s) (st.flush.putText s n) := by
  have hf := calm_flush h
  have ha : a ≠ .bad := by rintro rfl; exact hb rfl
  cases hs : s with
  | nil =>
    have h1 : @tx Gate.strict a [] = fl a := by rw [@tx_of Gate.strict a ha]; rfl
    rw [h1]
    have h2 : (st.flush.putText [] n) = { st.flush with col := st.flush.col + n } := by
      unfold PSt.putText
      rw [if_neg (by rintro ⟨h, _⟩; cases h), List.append_nil]
    rw [h2]
    cases a <;> exact hf
  | cons c t =>
    rw [hs] at hb
    rw [@tx_of Gate.strict a ha, if_neg (show ¬ List.isEmpty (c :: t) = true by simp)] at hb ⊢
    split
    · rename_i hc
      rw [Bool.and_eq_true, Bool.and_eq_true] at hc
      have hp : pair (c :: t) = false := by
        have : (!pair (c :: t)) = true := (Bool.and_eq_true _ _ ▸ hc.2).1
        simpa using this
      have hfi : @fine Gate.strict a (c :: t) = true := (Bool.and_eq_true _ _ ▸ hc.2).2
      have hpend : (st.flush.putText (c :: t) n).pend = none := by rw [putText_pend, flush_pend]
      have hput : ¬ (c :: t = [' '] ∧ endsWithSpace st.flush.out = true) → calm true (st.flush.out ++ c :: t) = true := by
        intro hn
        by_cases hq : a = .Q
        · subst hq
          cases hpe : st.pend with
          | none => exact absurd hpe h.2.2
          | some i =>
            simp only [PSt.flush, hpe]
            rw [List.append_assoc]
            exact calm_newline h.1 (calm_indent i (calm_pair hp))
        refine calm_append (calm_out hf) (calm_pair hp) (fun he => ?_)
        cases hl : lead (c :: t) with
        | false => rfl
        | true =>
          exfalso
          cases a with
          | bad => exact ha rfl
          | Q => exact hq rfl
          | N =>
            have h5 : endsWithSpace st.flush.out = false := hf.2.1
            rw [h5] at he; cases he
          | M =>
            have : (!lead (c :: t) || c :: t == [' ']) = true := hfi
            rw [hl, Bool.not_true, Bool.false_or] at this
            exact hn ⟨by simpa using this, he⟩
          | B =>
            have : (!lead (c :: t) || c :: t == [' ']) = true := hfi
            rw [hl, Bool.not_true, Bool.false_or] at this
            exact hn ⟨by simpa using this, he⟩
          | L =>
            have : (!lead (c :: t)) = true := hfi
            rw [hl] at this
            cases this
      split
      · refine ⟨?_, fun hn => absurd hpend hn⟩
        unfold PSt.putText
        split
        · exact calm_out hf
        · rename_i hn; exact hput hn
      · rename_i he
        have hne : c :: t ≠ [' '] := by
          intro h
          rw [h] at he
          exact he (by decide)
        have hout : (st.flush.putText (c :: t) n).out = st.flush.out ++ c :: t := by
          unfold PSt.putText
          rw [if_neg (fun h => hne h.1)]
        refine ⟨by rw [hout]; exact hput (fun h => hne h.1), ?_, hpend⟩
        rw [hout, ends_space_append (by simp)]
        exact ends_blank (by simpa using he)
    · rename_i hc
      rw [if_neg hc] at hb
      exact absurd rfl hb

theorem calm_brk {k : Br} {a : St} {st : PSt} (h : Calm a st) (hb : brk k a ≠ .bad) (i : Nat) :
    Calm (brk k a) { st with pend := some i } := by
  have key : calm true st.out = true ∧ endsWithSpace st.out = false → Calm (brk k a) { st with pend := some i } := by
    intro h'
    cases k <;> cases a <;> first | exact absurd rfl hb | exact ⟨h'.1, fun _ => h'.2⟩ | exact ⟨h'.1, h'.2⟩ | exact ⟨h'.1, h'.2, nofun⟩
  cases a with
  | N => exact key ⟨h.1, h.2.1⟩
  | Q => exact key ⟨h.1, h.2.1⟩
  | _ => cases k <;> exact absurd rfl hb

/-- As long as the strictest machine does not go bad, it describes the blanks of the printer state. -/
theorem run_calm {xs : List Sym} {ops : List Op} (h : Ress xs ops) : ∀ {a : St} {st : PSt}, Calm a st →
    @run Gate.strict a xs ≠ .bad → Calm (@run Gate.strict a xs) (runOps ops st) := by
  induction h with
  | nil => intro a st h _; exact h
  | @cons x xs o os hx hr ih =>
    intro a st h1 h3
    rw [runOps_append]
    have e : @run Gate.strict a (x :: xs) = @run Gate.strict (@step Gate.strict a x) xs := rfl
    rw [e] at h3 ⊢
    have hb : @step Gate.strict a x ≠ .bad := by
      intro e; rw [e, @run_bad Gate.strict] at h3; exact h3 rfl
    refine ih ?_ h3
    cases hx with
    | txt s n => exact calm_text h1 s n hb
    | flush => exact calm_flush h1
    | pend k i => exact calm_brk h1 hb i
    | space =>
      have := soft_inv hb; subst this
      refine ⟨?_, fun hn => absurd h1.2.2 hn⟩
      exact calm_append h1.1 (by decide) (fun h => by rw [h1.2.1] at h; cases h)
    | none =>
      have := may_inv hb; subst this
      exact ⟨h1.1, h1.2.1⟩
    | blank i =>
      have h4 : calm true st.out = true := calm_out h1
      have h5 : @step Gate.strict a (.sep true) = .L := by rcases brl_inv hb with rfl | rfl <;> rfl
      rw [h5]
      refine ⟨?_, fun _ => ?_⟩
      · exact calm_append h4 (by decide) (fun _ => rfl)
      · show endsWithSpace (st.out ++ ['\n']) = false
        rw [ends_space_append (by simp)]; decide
    | line i =>
      have h4 : calm true st.out = true ∧ endsWithSpace st.out = false := by
        rcases brl_inv hb with rfl | rfl <;> exact ⟨h1.1, h1.2.1⟩
      have h5 : @step Gate.strict a (.sep false) = .L := by rcases brl_inv hb with rfl | rfl <;> rfl
      rw [h5]
      exact ⟨h4.1, fun _ => h4.2⟩
    | eol s n n' =>
      have : a = .N := by cases a <;> first | rfl | exact absurd rfl hb
      subst this
      have h6 : Calm .B (st.flush.putText [' '] n) := by
        rw [flush_none h1.2.2]
        unfold PSt.putText
        split
        · exact ⟨h1.1, fun hn => absurd h1.2.2 hn⟩
        · exact ⟨calm_append h1.1 (by decide) (fun h => by rw [h1.2.1] at h; cases h), fun hn => absurd h1.2.2 hn⟩
      exact calm_text h6 s n' hb

/-- In the layout two blanks in a row are written only at the beginning of a line. -/
theorem layout_calm {ro : Comment → Notes.Role} {cm : CMap} (hro : Roles ro cm) {k : Nat} {p : Prog} {d : Doc} {l : List Comment}
    (h : p.build k cm = .ok (d, l)) (w : Nat) (hr : @run Gate.strict .N (syms ro cm p) ≠ .bad) :
    calm true (layout w d) = true := by
  obtain ⟨ops, h1, h2⟩ := pr_ress hro k w p d l h (@run_feed Gate.strict _ _ hr) 0 false [] PSt.init
  unfold layout
  rw [h1]
  exact calm_out (calm_flush (run_calm h2 (a := .N) (st := PSt.init) ⟨rfl, rfl, rfl⟩ hr))

end Afmt.Ends
