import Verif.Reparse
import Verif.Lines.Frame

/-!
# Rows: the lines of the members of bodies in the formatted text
-/

namespace Afmt.Lines
open Gram

/-! ### Rows of visible characters -/

/-- Rows of the characters; `p` is the row of the character before the `i`-th one, `m` the last line break before it. -/
def RowsOk (r : Nat → Nat) : Nat → Nat → Option Bool → List (Bool × Ch) → Prop
  | _, _, _, [] => True
  | i, p, m, (_, .c _) :: l => (∀ b, m = some b → r i = p + (if b then 2 else 1)) ∧ RowsOk r (i + 1) (r i) none l
  | i, p, _, (_, .sep b) :: l => RowsOk r i p (some b) l

theorem marks_same : ∀ {a : List Ch} {k : List (Bool × Ch)} (m : Option Bool), SameC a k → marksC m a = marksC m (k.map (·.2))
  | [], [], _, _ => rfl
  | x :: a, (f, y) :: k, m, h => by
    obtain ⟨h1, h2⟩ := h
    rcases h1 with h1 | ⟨c, d, rfl, h1, -⟩
    · subst h1
      cases x with
      | c x => simp only [List.map_cons, marksC, marks_same none h2]
      | sep b => simp only [List.map_cons, marksC, marks_same (some b) h2]
    · subst h1
      simp only [List.map_cons, marksC, marks_same none h2]
  | [], _ :: _, _, h => by cases h
  | _ :: _, [], _, h => by cases h

theorem rows_cons {r : Nat → Nat} {i p g : Nat} {gs : List Nat} (hr : r i = p + g) :
    ∀ {m : Option Bool} {L : List (Bool × Ch)}, All2 Fits (g :: gs) (marksC m (L.map (·.2))) →
    (∀ L', All2 Fits gs (marksC none (L'.map (·.2))) → RowsOk r (i + 1) (r i) none L') → RowsOk r i p m L
  | _, [], h, _ => by cases h
  | m, (f, .c x) :: L, h, hL => by
    rw [List.map_cons, marksC] at h
    cases h with
    | cons h1 h2 =>
      refine ⟨?_, hL L h2⟩
      rintro b rfl
      rw [hr, h1]
  | m, (f, .sep b) :: L, h, hL => by
    rw [List.map_cons, marksC] at h
    exact rows_cons (m := some b) (L := L) hr h hL

theorem rows_nil {r : Nat → Nat} {i p : Nat} : ∀ {m : Option Bool} {L : List (Bool × Ch)},
    All2 Fits [] (marksC m (L.map (·.2))) → RowsOk r i p m L
  | _, [], _ => trivial
  | m, (f, .c x) :: L, h => by rw [List.map_cons, marksC] at h; cases h
  | m, (f, .sep b) :: L, h => by rw [List.map_cons, marksC] at h; exact rows_nil (m := some b) (L := L) h

theorem rows_of_gaps {r : Nat → Nat} : ∀ (s : Str) {g i p : Nat} {m : Option Bool} {L : List (Bool × Ch)},
    All2 Fits (gaps g s) (marksC m (L.map (·.2))) → (∀ j, r (i + j) = p + g + rowAt s j) → RowsOk r i p m L
  | [], g, i, p, m, L, h, _ => by
    rw [gaps] at h
    exact rows_nil h
  | c :: s, g, i, p, m, L, h, hr => by
    rw [gaps] at h
    simp only [rowAt] at hr
    by_cases hn : c = '\n'
    · simp only [hn, if_true] at h hr
      exact rows_of_gaps s h (fun j => by rw [hr j]; omega)
    · simp only [hn, if_false] at h hr
      by_cases hb : c = ' '
      · simp only [hb, if_true, show isBlank ' ' = true from rfl] at h hr
        exact rows_of_gaps s h hr
      · have hbl : isBlank c = false := by simp [isBlank, hb, hn]
        simp only [hb, hbl, if_false, Bool.false_eq_true] at h hr
        have h0 : r i = p + g := hr 0
        refine rows_cons h0 h ?_
        intro L' h'
        refine rows_of_gaps s h' (fun j => ?_)
        have := hr (j + 1)
        rw [show i + (j + 1) = i + 1 + j from by omega] at this
        rw [this, h0]
        rfl

/-- The last line break after the last character. -/
def fin : Option Bool → List (Bool × Ch) → Option Bool
  | m, [] => m
  | _, (_, .c _) :: l => fin none l
  | _, (_, .sep b) :: l => fin (some b) l

theorem fin_append (b : List (Bool × Ch)) : ∀ (a : List (Bool × Ch)) (m : Option Bool), fin m (a ++ b) = fin (fin m a) b
  | [], _ => rfl
  | (_, .c _) :: a, _ => fin_append b a none
  | (_, .sep x) :: a, _ => fin_append b a (some x)

theorem fin_lift : ∀ (k : List (Bool × Letter)) (m : Option Bool), k ≠ [] → fin m (lift k) = none
  | [], _, h => absurd rfl h
  | [_], _, _ => rfl
  | _ :: y :: k, _, _ => fin_lift (y :: k) none (by simp)

theorem rows_append {r : Nat → Nat} (b : List (Bool × Ch)) : ∀ (a : List (Bool × Ch)) {i p : Nat} {m : Option Bool},
    RowsOk r i p m (a ++ b) → RowsOk r i p m a ∧
      RowsOk r (i + (chars a).length) (if chars a = [] then p else r (i + (chars a).length - 1)) (fin m a) b
  | [], i, p, m, h => ⟨trivial, by simpa [chars, bare, fin] using h⟩
  | (f, .c x) :: a, i, p, m, h => by
    obtain ⟨h1, h2⟩ := h
    obtain ⟨h3, h4⟩ := rows_append b a h2
    refine ⟨⟨h1, h3⟩, ?_⟩
    have e : chars ((f, Ch.c x) :: a) = (f, x.1) :: chars a := rfl
    rw [e, fin]
    rw [if_neg (by simp), List.length_cons]
    by_cases hc : chars a = []
    · simpa [hc] using h4
    · rw [if_neg hc] at h4
      rw [show i + ((chars a).length + 1) = i + 1 + (chars a).length from by omega]
      exact h4
  | (f, .sep x) :: a, i, p, m, h => rows_append b a (m := some x) h

/-! ### Contents -/

theorem code_extra {n : Node} (h : code n ≠ []) : n.extra = false := by
  cases n with
  | mk id kind named extra err field sr er sb eb text children =>
    cases extra with
    | false => rfl
    | true => exact absurd (by cases children <;> simp [code]) h

theorem leaf_lets {text : Str} {b : Bool} (h : (ink text).map (fun c => (b, c)) ≠ []) :
    (letters false text).map (fun c => (b, c)) ≠ [] := by
  intro h'
  rw [List.map_eq_nil_iff] at h'
  rw [← letters_ink text false, h'] at h
  exact h rfl

mutual
theorem fin_cont (cm : CMap) : ∀ (n : Node) (m : Option Bool), All (fun x => code x ≠ []) n → fin m (codeC (cont cm n)) = none
  | .mk id kind named extra err field sr er sb eb text children, m, h => by
    have he := code_extra h.here
    simp only at he
    subst he
    cases children with
    | nil =>
      have h0 := h.here
      simp only [code, Bool.false_eq_true, if_false] at h0
      simp only [cont, Bool.false_eq_true, if_false, codeC_append, codeC_bcomIf, codeC_acomIf, List.nil_append, List.append_nil, codeC_inl]
      exact fin_lift _ _ (leaf_lets h0)
    | cons c cs =>
      simp only [cont, Bool.false_eq_true, if_false, codeC_append, codeC_bcomIf, codeC_acomIf, List.nil_append, List.append_nil]
      rw [fin_append, fin_cont cm c m (h.kid (by simp))]
      exact fin_rest cm (bodyKinds.contains kind) c cs (fun x hx => h.kid (by simp [hx]))
theorem fin_rest (cm : CMap) (b : Bool) (c : Node) : ∀ (cs : List Node), (∀ x ∈ cs, All (fun x => code x ≠ []) x) →
    fin none (codeC (if b then Gram.brk cm c cs else []) ++ codeC (conts cm b cs)) = none
  | [], _ => by cases b <;> simp [Gram.brk, conts, fin]
  | d :: ds, h => by
    rw [conts, codeC_append, codeC_append, fin_append, fin_append, fin_cont cm d _ (h d (by simp))]
    exact fin_rest cm b d ds (fun x hx => h x (by simp [hx]))
end

theorem head_cont (cm : CMap) : ∀ (n : Node), All (fun x => code x ≠ []) n → ∃ (e : Bool) (l : Letter × List (Bool × Ch)), codeC (cont cm n) = (e, .c l.1) :: l.2
  | .mk id kind named extra err field sr er sb eb text children, h => by
    have he := code_extra h.here
    simp only at he
    subst he
    cases children with
    | nil =>
      have h0 := h.here
      simp only [code, Bool.false_eq_true, if_false] at h0
      simp only [cont, Bool.false_eq_true, if_false, codeC_append, codeC_bcomIf, codeC_acomIf, List.nil_append, List.append_nil, codeC_inl]
      obtain ⟨x, k, hk⟩ := List.exists_cons_of_ne_nil (leaf_lets h0)
      rw [hk]
      exact ⟨x.1, (x.2, lift k), rfl⟩
    | cons c cs =>
      simp only [cont, Bool.false_eq_true, if_false, codeC_append, codeC_bcomIf, codeC_acomIf, List.nil_append, List.append_nil]
      obtain ⟨e, l, hl⟩ := head_cont cm c (h.kid (by simp))
      rw [hl]
      exact ⟨e, (l.1, l.2 ++ _), rfl⟩

/-- No comment after a node. -/
def NoPost (cm : CMap) : Prop := ∀ id, (cm.get? id).bind (fun b => b.post.getLast?) = none

mutual
theorem cont_lined {cm : CMap} (hs : NoPost cm) (s : Str) : ∀ (n : Node) {i p : Nat} {m : Option Bool}, All (fun x => code x ≠ []) n →
    RowsOk (rowAt s) i p m (codeC (cont cm n)) → lined s i n = true
  | .mk id kind named extra err field sr er sb eb text children, i, p, m, h, hr => by
    have he := code_extra h.here
    simp only at he
    subst he
    rw [lined]
    cases children with
    | nil => rfl
    | cons c cs =>
      simp only [cont, Bool.false_eq_true, if_false, codeC_append, codeC_bcomIf, codeC_acomIf, List.nil_append, List.append_nil] at hr
      exact conts_lined hs s _ (c :: cs) (fun x hx => h.kid hx) (by rw [conts, codeC_append, codeC_append]; exact hr)
theorem conts_lined {cm : CMap} (hs : NoPost cm) (s : Str) (b : Bool) : ∀ (ns : List Node) {i p : Nat} {m : Option Bool},
    (∀ x ∈ ns, All (fun x => code x ≠ []) x) → RowsOk (rowAt s) i p m (codeC (conts cm b ns)) → lineds s b i ns = true
  | [], _, _, _, _, _ => rfl
  | c :: cs, i, p, m, h, hr => by
    have hc := h c (by simp)
    rw [conts, codeC_append, codeC_append] at hr
    obtain ⟨h1, h2⟩ := rows_append _ _ hr
    rw [chars_cont, if_neg hc.here, fin_cont cm c m hc] at h2
    obtain ⟨_, h3⟩ := rows_append _ _ h2
    rw [chars_brk, if_pos rfl, List.length_nil, Nat.add_zero] at h3
    rw [lineds, Bool.and_eq_true, Bool.and_eq_true]
    refine ⟨⟨cont_lined hs s c hc h1, ?_⟩, conts_lined hs s b cs (fun x hx => h x (by simp [hx])) h3⟩
    cases b with
    | false => rfl
    | true =>
    cases cs with
    | nil => rfl
    | cons x t =>
      have hx := h x (by simp)
      simp only [Bool.not_true, Bool.false_or, parted, Bool.or_eq_true, Bool.not_eq_true', beq_iff_eq]
      cases hcn : c.named with
      | false => simp
      | true =>
      cases hxn : x.named with
      | false => simp
      | true =>
        right
        have hm : isMember c = true := by simp [isMember, hcn, code_extra hc.here]
        have hmx : isMember x = true := by simp [isMember, hxn, code_extra hx.here]
        have ht : trailing cm c (x :: t) = blankBetween c x := by
          unfold trailing
          rw [hs]
          simp only [List.find?_cons, hxn, blankBetween]
          congr 1
          rw [decide_eq_decide]
          omega
        have hf : fin none (codeC (if true = true then Gram.brk cm c (x :: t) else [])) = some (blankBetween c x) := by
          rw [if_pos rfl, Gram.brk, if_pos (by simp [hm, hmx]), ht]
          rfl
        rw [hf] at h3
        obtain ⟨e, l, hl⟩ := head_cont cm x hx
        rw [conts, codeC_append, hl] at h3
        exact h3.1 _ rfl
end

end Afmt.Lines
