import Verif.Notes.Done
import Verif.PropsIdem

/-!
# Formatting again, with comments between members: the tree of the formatted text has the same skeleton
-/

namespace Afmt.Notes
open Gram
open Afmt.Lines (All)

/-! ### Rows -/

theorem rowAt_mono : ∀ (s : Str) {i j : Nat}, i ≤ j → rowAt s i ≤ rowAt s j
  | [], _, _, _ => by simp [rowAt]
  | c :: s, i, j, h => by
    rw [rowAt.eq_def (c :: s) i, rowAt.eq_def (c :: s) j]
    simp only
    split
    · exact Nat.succ_le_succ (rowAt_mono s h)
    · split
      · exact rowAt_mono s h
      · cases i with
        | zero => exact Nat.zero_le _
        | succ i =>
          cases j with
          | zero => omega
          | succ j => exact rowAt_mono s (by omega)

/-! ### Comments -/

theorem ink_join (i : Nat) : ∀ ls : List Str, ink (joinLines i ls) = ls.flatMap ink
  | [] => rfl
  | [l] => by simp [joinLines]
  | l :: m :: ms => by
    have hs : ink (spaces i) = [] := by
      unfold ink
      rw [List.filter_eq_nil_iff]
      intro c hc
      unfold spaces at hc
      rw [(List.mem_replicate.1 hc).2]
      decide
    have hn : ∀ s : Str, ink ('\n' :: s) = ink s := by
      intro s
      unfold ink
      rw [List.filter_cons_of_neg (by decide)]
    rw [joinLines, ink_append, hn, ink_append, hs, ink_join i (m :: ms), List.flatMap_cons]
    · simp
    · simp

theorem inLines_get {t : Str} {ls : List Str} (h : inLines t ls = true) : ∃ i, t = joinLines i ls := by
  unfold inLines at h
  rw [List.any_eq_true] at h
  obtain ⟨i, -, h⟩ := h
  exact ⟨i, by simpa using h⟩

theorem drawn_again {kind : String} {text text' : Str} (hn : kind = "line_comment" ∨ "/*".toList.isPrefixOf text = true)
    (h : inLines text' (drawnLines kind text) = true) : drawnLines kind text' = drawnLines kind text := by
  obtain ⟨i, rfl⟩ := inLines_get h
  unfold drawnLines
  by_cases hk : (kind == "line_comment") = true
  · simp only [hk, if_true, joinLines, trimEnd_twice]
  · simp only [hk, Bool.false_eq_true, if_false]
    have hp : "/*".toList.isPrefixOf text = true := by
      rcases hn with rfl | h
      · simp at hk
      · exact h
    by_cases hj : "/**".toList.isPrefixOf (trimEnd text) = true
    · exact blockLines_javadoc_stable i hj
    · refine blockLines_plain_stable i ?_ (Bool.eq_false_iff.2 hj) (trimEnd_twice _)
      rw [List.isPrefixOf_iff_prefix] at hp ⊢
      obtain ⟨r, rfl⟩ := hp
      by_cases he : trimEnd r = []
      · have := trimEnd_append_ws (s := "/*".toList) (trimEnd_eq_nil he)
        rw [this]
        exact ⟨[], by decide⟩
      · rw [trimEnd_prefix _ he]
        exact ⟨_, rfl⟩

theorem Note.opens {n : Node} (h : Note n) : n.kind = "line_comment" ∨ "/*".toList.isPrefixOf n.text = true := by
  unfold Note isNote at h
  simp only [Bool.and_eq_true, Bool.or_eq_true, beq_iff_eq] at h
  rcases h.2 with h | h
  · exact .inl h.1.1.1
  · exact .inr h.1.1.1.2

/-! ### Trees that look alike -/

/-- Extras are comments. -/
def NoteKids (n : Node) : Prop := ∀ c ∈ n.children, c.extra = true → Note c

theorem sett_kids {n : Node} (h : Sett n) : NoteKids n := by
  intro c hc hx
  cases hb : bodyKinds.contains n.kind with
  | false => rw [h.calm hb c hc] at hx; cases hx
  | true =>
    obtain ⟨xs, bs, ys, e, hxs, hys, hbs, -⟩ := h.body hb
    rw [e, List.mem_append, List.mem_append] at hc
    rcases hc with (hc | hc) | hc
    · rw [(hxs c hc).2.1] at hx; cases hx
    · rcases flat_cases hbs hc with ⟨b, hb, rfl⟩ | h
      · rw [(blks_mem hbs hb).2.1] at hx; cases hx
      · exact h
    · rw [(hys c hc).2.1] at hx; cases hx

mutual
theorem width_eq : ∀ (a b : Node) (pk : String) (pf : Option String), alikeN pk pf a b = true → (a.extra = true → Note a) →
    All NoteKids a → width b = extent a
  | .mk id kind named extra err field sr er sb eb text children,
    .mk id' kind' named' extra' err' field' sr' er' sb' eb' text' children', pk, pf, h, hn, hk => by
    simp only [alikeN, Bool.and_eq_true, beq_iff_eq] at h
    obtain ⟨⟨⟨⟨⟨⟨⟨rfl, rfl⟩, rfl⟩, rfl⟩, rfl⟩, h6⟩, -⟩, h9⟩ := h
    have hl := widths_eq children children' _ _ h9 hk.here (fun c hc => hk.kid hc)
    cases extra with
    | true =>
      have hleaf : children = [] := (hn rfl).leaf
      subst hleaf
      cases children' with
      | cons => simp [alikeNs] at h9
      | nil =>
        simp only [if_true, Bool.and_eq_true] at h6
        obtain ⟨i, e⟩ := inLines_get h6.2
        simp only [width, extent, if_true]
        rw [e, ink_join]
    | false =>
      cases children with
      | nil =>
        cases children' with
        | nil =>
          simp only [Bool.false_eq_true, if_false, List.isEmpty_nil, Bool.not_true, Bool.false_or, Bool.and_eq_true, beq_iff_eq] at h6
          simp only [width, extent, Bool.false_eq_true, if_false]
          exact (Lines.fold_len h6.2).symm
        | cons => simp [alikeNs] at h9
      | cons c cs =>
        cases children' with
        | nil => simp [alikeNs] at h9
        | cons c' cs' =>
          simp only [widths, extents] at hl
          simp only [width, extent, Bool.false_eq_true, if_false]
          exact hl
theorem widths_eq : ∀ (as bs : List Node) (pk : String) (pf : Option String), alikeNs pk pf as bs = true →
    (∀ c ∈ as, c.extra = true → Note c) → (∀ c ∈ as, All NoteKids c) → widths bs = extents as
  | [], [], _, _, _, _, _ => rfl
  | [], _ :: _, _, _, h, _, _ => by simp [alikeNs] at h
  | _ :: _, [], _, _, h, _, _ => by simp [alikeNs] at h
  | a :: as, b :: bs, pk, pf, h, hn, hk => by
    rw [alikeNs, Bool.and_eq_true] at h
    rw [widths, extents, width_eq a b _ _ h.1 (hn a (by simp)) (hk a (by simp)),
      widths_eq as bs _ _ h.2 (fun c hc => hn c (by simp [hc])) (fun c hc => hk c (by simp [hc]))]
end

theorem alikeN_named {pk : String} {pf : Option String} {a b : Node} (h : alikeN pk pf a b = true) :
    a.named = b.named ∧ a.extra = b.extra ∧ a.kind = b.kind ∧ a.field = b.field := by
  cases a; cases b
  simp only [alikeN, Bool.and_eq_true, beq_iff_eq] at h
  exact ⟨h.1.1.1.1.1.1.2, h.1.1.1.1.1.2, h.1.1.1.1.1.1.1, h.1.1.1.2⟩

theorem alikeNs_any : ∀ {as bs : List Node} {pk : String} {pf : Option String}, alikeNs pk pf as bs = true →
    as.any (·.named) = bs.any (·.named)
  | [], [], _, _, _ => rfl
  | [], _ :: _, _, _, h => by simp [alikeNs] at h
  | _ :: _, [], _, _, h => by simp [alikeNs] at h
  | a :: as, b :: bs, pk, pf, h => by
    rw [alikeNs, Bool.and_eq_true] at h
    rw [List.any_cons, List.any_cons, (alikeN_named h.1).1, alikeNs_any h.2]

theorem shown_alikeN {pk : String} {pf : Option String} {a b : Node} (h : alikeN pk pf a b = true) : a.shown pk pf = b.shown pk pf := by
  obtain ⟨h1, h2, h3, h4⟩ := alikeN_named h
  unfold Node.shown
  rw [h2, h3, h4]
  cases a with
  | mk _ _ _ _ _ _ _ _ _ _ _ children =>
  cases b with
  | mk _ _ _ _ _ _ _ _ _ _ _ children' =>
    simp only [alikeN, Bool.and_eq_true] at h
    simp only [alikeNs_any h.2]

/-- The words of the trees are the same, comments are drawn in the same lines. -/
theorem spelling_again {pk : String} {pf : Option String} {a b : Node} (h : alikeN pk pf a b = true) (hn : a.extra = true → Note a)
    (hs : a.shown pk pf = true) : a.spelling pk pf = b.spelling pk pf := by
  have h' := alikeN_named h
  cases a with
  | mk id kind named extra err field sr er sb eb text children =>
  cases b with
  | mk id' kind' named' extra' err' field' sr' er' sb' eb' text' children' =>
    simp only at h'
    obtain ⟨rfl, rfl, rfl, rfl⟩ := h'
    simp only [alikeN, Bool.and_eq_true] at h
    have h6 := h.1.1.2
    cases extra with
    | false =>
      rw [hs] at h6
      simp only [Bool.false_eq_true, if_false, Bool.not_true, Bool.false_or, Bool.and_eq_true, beq_iff_eq] at h6
      exact h6.1
    | true =>
      simp only [if_true, Bool.and_eq_true] at h6
      have hc : isCommentNode kind true field = true := by
        unfold isCommentNode
        have := (hn rfl).kind
        simp only [Node.isCommentKind] at this
        rw [h6.1]
        simpa using this
      rw [Node.spelling, Node.spelling]
      simp only [hc, if_true]
      rw [drawn_again (hn rfl).opens h6.2]

/-! ### Neighbours -/

/-- What is known about two neighbours of a body and their images. -/
structure Link (c x c' x' : Node) : Prop where
  apart : c.extra = true ∨ x.extra = true → atEnd c x = true ∨ c.endRow < x.startRow
  step : x'.startRow = c'.endRow + stepN c x
  one : atEnd c x = true → x'.startRow = x'.endRow
  late : atEnd c x = true → x.startRow ≠ 0 ∧ x'.startRow ≠ 0

theorem atEnd_row {c x : Node} (h : atEnd c x = true) : x.startRow = c.endRow ∧ c.extra = false ∧ x.extra = true ∧ x.kind = "line_comment" := by
  unfold atEnd at h
  simp only [Bool.and_eq_true, Bool.not_eq_true', beq_iff_eq] at h
  exact ⟨h.2, h.1.1.2, h.1.1.1, h.1.2⟩

theorem Link.rows {c x c' x' : Node} (h : Link c x c' x') (he : c.extra = true ∨ x.extra = true) :
    (x.startRow == c.endRow) = (x'.startRow == c'.endRow) ∧ decide (c.endRow + 1 < x.startRow) = decide (c'.endRow + 1 < x'.startRow) := by
  have hs := h.step
  unfold stepN at hs
  rcases h.apart he with ha | hl
  · rw [if_pos ha] at hs
    have := (atEnd_row ha).1
    rw [this, hs]
    constructor
    · simp
    · rw [decide_eq_decide]; omega
  · have ha : atEnd c x = false := by
      cases hq : atEnd c x with
      | false => rfl
      | true => have := (atEnd_row hq).1; omega
    rw [ha, if_neg Bool.false_ne_true] at hs
    unfold blankBetween at hs
    have h0 : (x.startRow == 0) = false := by simp; omega
    rw [h0, Bool.false_or] at hs
    constructor
    · have h1 : (x.startRow == c.endRow) = false := by simp; omega
      rw [h1, hs]
      split <;> simp
    · by_cases hb : c.endRow + 1 < x.startRow
      · simp only [hb, decide_true, if_true] at hs ⊢
        rw [hs]; simp
      · simp only [hb, decide_false, Bool.false_eq_true, if_false] at hs ⊢
        rw [hs]; simp

theorem Link.member {c x c' x' : Node} (h : Link c x c' x') :
    (x.startRow == 0 || decide (c.endRow + 1 < x.startRow)) = (x'.startRow == 0 || decide (c'.endRow + 1 < x'.startRow)) ∧ x'.startRow ≠ 0 := by
  have hs := h.step
  unfold stepN at hs
  by_cases ha : atEnd c x = true
  · rw [if_pos ha] at hs
    have h1 := (atEnd_row ha).1
    obtain ⟨h2, h3⟩ := h.late ha
    refine ⟨?_, h3⟩
    have e1 : (x.startRow == 0) = false := by simpa using h2
    have e2 : (x'.startRow == 0) = false := by simpa using h3
    rw [e1, e2, h1, hs, Bool.false_or, Bool.false_or, decide_eq_decide]
    omega
  · rw [if_neg ha] at hs
    have hb : (x.startRow == 0 || decide (c.endRow + 1 < x.startRow)) = blankBetween c x := rfl
    rw [hb]
    cases hq : blankBetween c x with
    | true => rw [hq, if_pos rfl] at hs; rw [hs]; simp
    | false => rw [hq, if_neg Bool.false_ne_true] at hs; rw [hs]; simp

/-- After it come members and comments and then tokens. -/
inductive Run : List Node → Prop
  | toks {cs : List Node} : (∀ c ∈ cs, Tok c) → Run cs
  | cons {c : Node} {cs : List Node} : (Mem c ∨ Note c) → Run cs → Run (c :: cs)

theorem Run.head {c : Node} {cs : List Node} (h : Run (c :: cs)) (hn : c.named = true) : (Mem c ∨ Note c) ∧ Run cs := by
  cases h with
  | toks h => rw [(h c (by simp)).1] at hn; cases hn
  | cons h h' => exact ⟨h, h'⟩

/-- The siblings on the left: the nearest named one, and the nearest member, if any. -/
inductive Lefts : List Node → List Node → Option (Node × Node) → Prop
  | none {l l' : List Node} : (∀ c ∈ l, Tok c) → (∀ c ∈ l', c.named = false ∧ c.isCode = false) → Lefts l l' none
  | some {l l' : List Node} {p p' : Node} : l.find? (·.named) = some p → l'.find? (·.named) = some p' →
      (l.find? Node.isCode = none ∧ l'.find? Node.isCode = none ∧ p.extra = true ∨
        ∃ o o', l.find? Node.isCode = some o ∧ l'.find? Node.isCode = some o' ∧ o.endRow ≤ p.endRow ∧ o'.endRow ≤ p'.endRow ∧
          (p.extra = false → o = p ∧ o' = p')) → Lefts l l' (some (p, p'))

/-! ### The lines around the children of a node -/

/-- The lines around all siblings are the same, and no later member is in the first line. -/
def Arounds (body : Bool) : List Node → List Node → List Node → List Node → Prop
  | l, l', a :: as, b :: bs => around false body l a as = around false body l' b bs ∧
      (!body || !b.named || (bs.find? (·.named)).all (fun x => x.startRow != 0)) = true ∧ Arounds body (a :: l) (b :: l') as bs
  | _, _, _, _ => True

theorem around_quiet {body : Bool} {l l' r r' : List Node} {a b : Node} (ha : a.extra = false) (hb : b.extra = false)
    (hn : (body && a.named) = false) (e : a.named = b.named) :
    around false body l a r = around false body l' b r' ∧ (!body || !b.named || (r'.find? (·.named)).all (fun x => x.startRow != 0)) = true := by
  unfold around
  rw [ha, hb, ← e, hn]
  simp only [Bool.false_eq_true, if_false, Bool.not_false, Bool.and_true, true_and]
  cases body <;> cases hq : a.named <;> simp_all

theorem arounds_quiet {body : Bool} {pk : String} {pf : Option String} : ∀ {as bs l l' : List Node}, alikeNs pk pf as bs = true →
    (∀ c ∈ as, c.extra = false ∧ (body && c.named) = false) → Arounds body l l' as bs
  | [], _, _, _, _, _ => by simp [Arounds]
  | _ :: _, [], _, _, h, _ => by simp [alikeNs] at h
  | a :: as, b :: bs, l, l', h, hq => by
    rw [alikeNs, Bool.and_eq_true] at h
    obtain ⟨h1, h2, -, -⟩ := alikeN_named h.1
    obtain ⟨q1, q2⟩ := hq a (by simp)
    have := around_quiet (l := l) (l' := l') (r := as) (r' := bs) q1 (h2 ▸ q1) q2 h1
    exact ⟨this.1, this.2, arounds_quiet h.2 (fun c hc => hq c (by simp [hc]))⟩

/-- Comments are apart from their neighbours. -/
def Adj : List Node → Prop
  | c :: x :: r => (c.named = true → x.named = true → c.extra = true ∨ x.extra = true → atEnd c x = true ∨ c.endRow < x.startRow) ∧ Adj (x :: r)
  | _ => True

theorem Adj.tail {c : Node} {r : List Node} (h : Adj (c :: r)) : Adj r := by
  cases r with
  | nil => trivial
  | cons x r => exact h.2

theorem tok_code {t : Node} (h : Tok t) : t.isCode = false := by
  obtain ⟨h1, h2, h3⟩ := h
  unfold Node.isCode
  rw [h1, h2]
  unfold isAssociableUnnamedKind isPunctuationKind at h3
  simpa [or_assoc] using h3

theorem tok_named {cs : List Node} (h : ∀ c ∈ cs, Tok c) : cs.find? (·.named) = none :=
  Lines.find_unnamed (fun c hc => (h c hc).1)

theorem alike_toks {pk : String} {pf : Option String} : ∀ {as bs : List Node}, alikeNs pk pf as bs = true → (∀ c ∈ as, Tok c) →
    ∀ c ∈ bs, c.named = false
  | [], [], _, _, c, hc => nomatch hc
  | [], _ :: _, h, _, _, _ => by simp [alikeNs] at h
  | _ :: _, [], h, _, _, _ => by simp [alikeNs] at h
  | a :: as, b :: bs, h, ht, c, hc => by
    rw [alikeNs, Bool.and_eq_true] at h
    rcases List.mem_cons.1 hc with rfl | hc
    · rw [← (alikeN_named h.1).1]; exact (ht a (by simp)).1
    · exact alike_toks h.2 (fun x hx => ht x (by simp [hx])) c hc

theorem placedN_rows {s : Str} {i : Nat} {n : Node} (h : placedN s i n = true) :
    n.startRow = rowAt s i ∧ n.endRow = rowAt s (i + width n - 1) := by
  cases n
  simp only [placedN, Bool.and_eq_true, beq_iff_eq] at h
  exact ⟨h.1.1, h.1.2⟩

theorem beq_swap (a b : Nat) : (a == b) = (b == a) := by
  rw [Bool.eq_iff_iff, beq_iff_eq, beq_iff_eq]
  exact eq_comm

theorem mem_named {c : Node} (h : Mem c ∨ Note c) : c.named = true := by
  rcases h with h | h
  · exact h.1
  · exact h.named

/-- The link between two neighbours. -/
theorem link_of {s : Str} {i : Nat} {pk : String} {pf : Option String} {c x c' x' : Node} {t t' : List Node}
    (h1 : alikeN pk pf c c' = true) (h2 : alikeN pk pf x x' = true) (hc : c.named = true) (hx : x.named = true)
    (wc : width c' = extent c) (wx : width x' = extent x) (hp : placedN s i c' = true) (hq : placedN s (i + width c') x' = true)
    (hl : partedN s (i + extent c) c (x :: t) = true) (ho : oneLine s (i + extent c) c (x :: t) = true) (ha : Adj (c :: x :: t))
    (e1 : lateEnds (c :: x :: t) = true) (e2 : lateEnds (c' :: x' :: t') = true) : Link c x c' x' := by
  have r1 := (placedN_rows hp).2
  obtain ⟨r2, r3⟩ := placedN_rows hq
  rw [partedN, hc, hx] at hl
  rw [oneLine, hc, hx] at ho
  simp only [Bool.not_true, Bool.false_or, beq_iff_eq, Bool.or_eq_true, Bool.not_eq_true'] at hl ho
  rw [wc] at r1 r2 r3
  rw [wx] at r3
  have hs : x'.startRow = c'.endRow + stepN c x := by rw [r2, r1, hl]
  simp only [lateEnds, Bool.and_eq_true, Bool.or_eq_true, Bool.not_eq_true', bne_iff_ne, ne_eq] at e1 e2
  refine ⟨ha.1 hc hx, hs, fun h => ?_, fun h => ⟨?_, ?_⟩⟩
  · rw [r2, r3]
    rcases ho with ho | ho
    · rw [ho] at h; cases h
    · exact ho
  · rcases e1.1 with e | e
    · rw [e] at h; cases h
    · exact e
  · rcases e2.1 with e | e
    · obtain ⟨-, b1, b2, b3⟩ := atEnd_row h
      have : atEnd c' x' = true := by
        unfold atEnd
        rw [← (alikeN_named h1).2.1, ← (alikeN_named h2).2.1, ← (alikeN_named h2).2.2.1, b1, b2, b3, hs, stepN, if_pos h]
        simp
      rw [this] at e; cases e
    · exact e

theorem arounds_run {body : Bool} {s : Str} {pk : String} {pf : Option String} : ∀ {as bs l l' : List Node} {q : Option (Node × Node)} {i : Nat},
    Run as → alikeNs pk pf as bs = true → placedNs s i bs = true → linedNs s true i as = true → Lefts l l' q →
    (∀ p p' x t x' t', q = some (p, p') → as = x :: t → bs = x' :: t' → x.named = true → Link p x p' x') → Adj as →
    lateEnds as = true → lateEnds bs = true → (∀ c ∈ as, (c.extra = true → Note c) ∧ All NoteKids c) → Arounds body l l' as bs
  | [], _, _, _, _, _, _, _, _, _, _, _, _, _, _, _ => by simp [Arounds]
  | _ :: _, [], _, _, _, _, _, h, _, _, _, _, _, _, _, _ => by simp [alikeNs] at h
  | c :: r, c' :: r', l, l', q, i, hr, ha, hp, hl, hL, hk, hA, e1, e2, hN => by
    cases hr with
    | toks ht =>
      exact arounds_quiet ha (fun c hc => ⟨(ht c hc).2.1, by rw [(ht c hc).1, Bool.and_false]⟩)
    | cons hc hr =>
    have ha' := ha
    rw [alikeNs, Bool.and_eq_true] at ha
    rw [placedNs, Bool.and_eq_true] at hp
    rw [linedNs] at hl
    simp only [Bool.not_true, Bool.false_or, Bool.and_eq_true] at hl
    obtain ⟨⟨-, hl1, hl2⟩, hl3⟩ := hl
    obtain ⟨n1, n2, n3, -⟩ := alikeN_named ha.1
    have wc := width_eq c c' pk pf ha.1 (hN c (by simp)).1 (hN c (by simp)).2
    have hcn := mem_named hc
    -- what comes next
    have hR : (r.find? (·.named) = none ∧ r'.find? (·.named) = none) ∨
        ∃ x x', r.find? (·.named) = some x ∧ r'.find? (·.named) = some x' ∧ Link c x c' x' ∧ ∃ t t', r = x :: t ∧ r' = x' :: t' := by
      cases hr with
      | toks ht => exact .inl ⟨tok_named ht, Lines.find_unnamed (alike_toks ha.2 ht)⟩
      | @cons x t hx hr =>
        cases r' with
        | nil => simp [alikeNs] at ha
        | cons x' t' =>
          have hxn := mem_named hx
          have ha2 := ha.2
          rw [alikeNs, Bool.and_eq_true] at ha2
          have hp2 := hp.2
          rw [placedNs, Bool.and_eq_true] at hp2
          have wx := width_eq x x' pk pf ha2.1 (hN x (by simp)).1 (hN x (by simp)).2
          refine .inr ⟨x, x', by simp [hxn], by simp [← (alikeN_named ha2.1).1, hxn], ?_, t, t', rfl, rfl⟩
          exact link_of ha.1 ha2.1 hcn hxn wc wx hp.1 hp2.1 hl1 hl2 hA e1 e2
    have hlate : (!body || !c'.named || (r'.find? (·.named)).all (fun x => x.startRow != 0)) = true := by
      rcases hR with ⟨-, h⟩ | ⟨x, x', -, h, hlk, -⟩
      · rw [h]; simp
      · rw [h]; simp [hlk.member.2]
    -- the lines around this node
    have har : around false body l c r = around false body l' c' r' := by
      unfold around
      rw [← n1, ← n2]
      rcases hc with hc | hc
      · rw [hc.2.1, hc.1]
        simp only [Bool.false_eq_true, if_false, Bool.not_false, Bool.and_true, Around.mk.injEq, true_and]
        rcases hR with ⟨h, h'⟩ | ⟨x, x', h, h', hlk, -⟩
        · rw [h, h']; rfl
        · rw [h, h']
          simp only [Option.map_some, Bool.false_and, Bool.true_and, hlk.member.1]
      · rw [hc.extra]
        simp only [if_true, Bool.not_true, Bool.and_false, Bool.false_eq_true, if_false, Around.mk.injEq, and_true]
        refine ⟨?_, ?_, ?_⟩
        · cases hL with
          | none h h' => rw [tok_named h, Lines.find_unnamed (fun c hc => (h' c hc).1)]; rfl
          | some h h' _ =>
            rw [h, h']
            have := (hk _ _ c r c' r' rfl rfl rfl hcn).rows (.inr hc.extra)
            simp only [Option.map_some, this.1, this.2]
        · rcases hR with ⟨h, h'⟩ | ⟨x, x', h, h', hlk, -⟩
          · rw [h, h']; rfl
          · rw [h, h']
            have := hlk.rows (.inl hc.extra)
            simp only [Option.map_some, beq_swap c.endRow, beq_swap c'.endRow, this.1, this.2]
        · cases hL with
          | none h h' =>
            rw [List.find?_eq_none.2 (fun x hx => by rw [tok_code (h x hx)]; exact Bool.false_ne_true),
              List.find?_eq_none.2 (fun x hx => by rw [(h' x hx).2]; exact Bool.false_ne_true)]
            rfl
          | @some p p' h h' ho =>
            have hlk := hk _ _ c r c' r' rfl rfl rfl hcn
            rcases ho with ⟨h1, h2, -⟩ | ⟨o, o', h1, h2, h3, h4, h5⟩
            · rw [h1, h2]; rfl
            · rw [h1, h2]
              simp only [Option.map_some, Option.some.injEq]
              have hrow := hc.rows
              have hrow' : c'.startRow ≤ c'.endRow := by
                obtain ⟨q1, q2⟩ := placedN_rows hp.1
                rw [q1, q2, wc]
                have := extent_note hc
                exact rowAt_mono s (by omega)
              by_cases hae : atEnd p c = true
              · obtain ⟨a1, a2, a3, a4⟩ := atEnd_row hae
                obtain ⟨rfl, rfl⟩ := h5 a2
                have b1 := hc.oneRow a4
                have b2 := hlk.one hae
                have b3 := hlk.step
                rw [stepN, if_pos hae] at b3
                have c1 : (c.endRow == o.endRow) = true := by rw [beq_iff_eq]; omega
                have c2 : (c'.endRow == o'.endRow) = true := by rw [beq_iff_eq]; omega
                rw [c1, c2]
              · have b1 : p.endRow < c.startRow := by
                  rcases hlk.apart (.inr hc.extra) with h | h
                  · exact absurd h hae
                  · exact h
                have b2 := hlk.step
                rw [stepN, if_neg hae] at b2
                have b3 : p'.endRow < c'.startRow := by rw [b2]; split <;> omega
                have c1 : (c.endRow == o.endRow) = false := by simp; omega
                have c2 : (c'.endRow == o'.endRow) = false := by simp; omega
                rw [c1, c2]
    -- the siblings on the left of the next one
    have hL' : Lefts (c :: l) (c' :: l') (some (c, c')) := by
      refine .some (by simp [hcn]) (by simp [← n1, hcn]) ?_
      rcases hc with hc | hc
      · have k1 : c.isCode = true := by unfold Node.isCode; rw [hc.1, hc.2.1]; rfl
        have k2 : c'.isCode = true := by unfold Node.isCode; rw [← n1, ← n2, hc.1, hc.2.1]; rfl
        exact .inr ⟨c, c', by simp [k1], by simp [k2], Nat.le_refl _, Nat.le_refl _, fun _ => ⟨rfl, rfl⟩⟩
      · have k1 : c.isCode = false := by unfold Node.isCode; rw [hc.extra]; rfl
        have k2 : c'.isCode = false := by unfold Node.isCode; rw [← n2, hc.extra]; rfl
        rw [List.find?_cons, List.find?_cons, k1, k2]
        simp only
        cases hL with
        | none h h' =>
          exact .inl ⟨List.find?_eq_none.2 (fun x hx => by rw [tok_code (h x hx)]; exact Bool.false_ne_true),
            List.find?_eq_none.2 (fun x hx => by rw [(h' x hx).2]; exact Bool.false_ne_true), hc.extra⟩
        | @some p p' h h' ho =>
          have hlk := hk _ _ c r c' r' rfl rfl rfl hcn
          rcases ho with ⟨h1, h2, -⟩ | ⟨o, o', h1, h2, h3, h4, h5⟩
          · exact .inl ⟨h1, h2, hc.extra⟩
          · refine .inr ⟨o, o', h1, h2, ?_, ?_, fun h => (by rw [hc.extra] at h; cases h)⟩
            · have := hc.rows
              rcases hlk.apart (.inr hc.extra) with h | h
              · have := (atEnd_row h).1; omega
              · omega
            · have b := hlk.step
              have hrow' : c'.startRow ≤ c'.endRow := by
                obtain ⟨q1, q2⟩ := placedN_rows hp.1
                rw [q1, q2, wc]
                have := extent_note hc
                exact rowAt_mono s (by omega)
              omega
    have late_tail : ∀ {x : Node} {t : List Node}, lateEnds (x :: t) = true → lateEnds t = true := by
      intro x t h
      cases t with
      | nil => rfl
      | cons y t => rw [lateEnds, Bool.and_eq_true] at h; exact h.2
    refine ⟨har, hlate, arounds_run hr ha.2 hp.2 (by rw [wc]; exact hl3) hL' ?_ hA.tail (late_tail e1) (late_tail e2)
      (fun d hd => hN d (by simp [hd]))⟩
    intro p p' x t x' t' he h1 h2 hx
    cases he
    rcases hR with ⟨h, -⟩ | ⟨y, y', -, -, hlk, u, u', g1, g2⟩
    · rw [h1, List.find?_cons, hx] at h; cases h
    · rw [h1] at g1; rw [h2] at g2
      cases g1; cases g2
      exact hlk

theorem late_tail {x : Node} {t : List Node} (h : lateEnds (x :: t) = true) : lateEnds t = true := by
  cases t with
  | nil => rfl
  | cons y t => rw [lateEnds, Bool.and_eq_true] at h; exact h.2

theorem arounds_body {body : Bool} {s : Str} {pk : String} {pf : Option String} {as : List Node} (hr : Run as) : ∀ {xs bs l l' : List Node} {i : Nat},
    (∀ c ∈ xs, Tok c) → alikeNs pk pf (xs ++ as) bs = true → placedNs s i bs = true → linedNs s true i (xs ++ as) = true → Lefts l l' none →
    Adj as → lateEnds (xs ++ as) = true → lateEnds bs = true → (∀ c ∈ xs ++ as, (c.extra = true → Note c) ∧ All NoteKids c) →
    Arounds body l l' (xs ++ as) bs
  | [], bs, l, l', i, _, ha, hp, hl, hL, hA, e1, e2, hN =>
    arounds_run hr ha hp hl hL (fun _ _ _ _ _ _ h => nomatch h) hA e1 e2 hN
  | x :: xs, [], _, _, _, _, ha, _, _, _, _, _, _, _ => by simp [alikeNs] at ha
  | x :: xs, b :: bs, l, l', i, hx, ha, hp, hl, hL, hA, e1, e2, hN => by
    rw [List.cons_append] at ha hl e1 ⊢
    rw [alikeNs, Bool.and_eq_true] at ha
    rw [placedNs, Bool.and_eq_true] at hp
    rw [linedNs, Bool.and_eq_true] at hl
    have ht := hx x (by simp)
    obtain ⟨n1, n2, n3, -⟩ := alikeN_named ha.1
    have wc := width_eq x b pk pf ha.1 (hN x (by simp)).1 (hN x (by simp)).2
    have hq := around_quiet (body := body) (l := l) (l' := l') (r := xs ++ as) (r' := bs) ht.2.1 (n2 ▸ ht.2.1) (by rw [ht.1, Bool.and_false]) n1
    have hL' : Lefts (x :: l) (b :: l') none := by
      cases hL with
      | none h h' =>
        refine .none (fun c hc => ?_) (fun c hc => ?_)
        · rcases List.mem_cons.1 hc with rfl | hc
          · exact ht
          · exact h c hc
        · rcases List.mem_cons.1 hc with rfl | hc
          · refine ⟨n1 ▸ ht.1, ?_⟩
            have := tok_code ht
            unfold Node.isCode at this ⊢
            rw [← n1, ← n2, ← n3]
            exact this
          · exact h' c hc
    exact ⟨hq.1, hq.2, arounds_body hr (fun c hc => hx c (by simp [hc])) ha.2 hp.2 (by rw [wc]; exact hl.2) hL' hA
      (late_tail e1) (late_tail e2) (fun c hc => hN c (by simp [hc]))⟩

theorem run_toks {ys : List Node} (hy : ∀ c ∈ ys, Tok c) : ∀ {ms : List Node}, (∀ c ∈ ms, Mem c ∨ Note c) → Run (ms ++ ys)
  | [], _ => .toks hy
  | c :: ms, h => .cons (h c (by simp)) (run_toks hy (ms := ms) (fun x hx => h x (by simp [hx])))

theorem adj_toks {ys : List Node} (hy : ∀ c ∈ ys, Tok c) : ∀ {ms : List Node}, apartRows ms = true → Adj (ms ++ ys)
  | [], _ => by
    induction ys with
    | nil => trivial
    | cons y ys ih =>
      cases ys with
      | nil => trivial
      | cons z zs => exact ⟨fun h => (by rw [(hy y (by simp)).1] at h; cases h), ih (fun c hc => hy c (by simp [hc]))⟩
  | [c], _ => by
    have := adj_toks hy (ms := []) rfl
    cases ys with
    | nil => trivial
    | cons y ys => exact ⟨fun _ h => (by rw [(hy y (by simp)).1] at h; cases h), this⟩
  | c :: x :: ms, h => by
    refine ⟨fun _ _ he => ?_, adj_toks hy (ms := x :: ms) (apart_tail h)⟩
    exact apart_head h he

theorem arounds_kids {body : Bool} {s : Str} {pk : String} {pf : Option String} {n : Node} {bs : List Node} {i : Nat} (hS : Sett n)
    (hk : All NoteKids n) (ha : alikeNs pk pf n.children bs = true) (hp : placedNs s i bs = true)
    (hl : linedNs s (bodyKinds.contains n.kind) i n.children = true) (e1 : lateEnds n.children = true) (e2 : lateEnds bs = true)
    (hb : body = true → bodyKinds.contains n.kind = true) : Arounds body [] [] n.children bs := by
  cases hkd : bodyKinds.contains n.kind with
  | false =>
    have : body = false := by
      cases body with
      | false => rfl
      | true => rw [hb rfl] at hkd; cases hkd
    subst this
    exact arounds_quiet ha (fun c hc => ⟨hS.calm hkd c hc, rfl⟩)
  | true =>
    obtain ⟨xs, gs, ys, e, hxs, hys, hgs, hap⟩ := hS.body hkd
    rw [hkd] at hl
    have hN : ∀ c ∈ n.children, (c.extra = true → Note c) ∧ All NoteKids c := fun c hc => ⟨hk.here c hc, hk.kid hc⟩
    rw [e, List.append_assoc] at ha hl e1 hN ⊢
    refine arounds_body (run_toks hys ?_) hxs ha hp hl (.none (fun _ h => nomatch h) (fun _ h => nomatch h)) (adj_toks hys hap) e1 e2 hN
    intro c hc
    rcases flat_cases hgs hc with ⟨b, hb, rfl⟩ | h
    · exact .inl (blks_mem hgs hb)
    · exact .inr h

mutual
theorem skelN_eq (s : Str) : ∀ (a b : Node) (pk : String) (pf : Option String) (body : Bool) (l r l' r' : List Node) (i : Nat),
    alikeN pk pf a b = true → placedN s i b = true → linedN s i a = true → All Both a → (a.extra = true → Note a) → lateNotes a = true →
    lateNotes b = true → (pk = "constructor_declaration" → a.field = some "body" → a.kind = "constructor_body") →
    around false body l a r = around false body l' b r' →
    a.skel false pk pf body l r = b.skel false pk pf body l' r' ∧ late pk b = true
  | .mk id kind named extra err field sr er sb eb text children,
    .mk id' kind' named' extra' err' field' sr' er' sb' eb' text' children', pk, pf, body, l, r, l', r', i, ha, hp, hl, hf, hn, e1, e2, hk, har => by
    have hsh := shown_alikeN ha
    have hspell := spelling_again ha hn
    simp only [alikeN, Bool.and_eq_true, beq_iff_eq] at ha
    obtain ⟨⟨⟨⟨⟨⟨⟨rfl, rfl⟩, rfl⟩, rfl⟩, rfl⟩, h6⟩, h8⟩, h9⟩ := ha
    simp only [placedN, Bool.and_eq_true, beq_iff_eq] at hp
    rw [linedN] at hl
    rw [lateNotes, Bool.and_eq_true] at e1 e2
    have hNK : All NoteKids (.mk id kind named extra err field sr er sb eb text children) := hf.imp (fun _ h => sett_kids h.2)
    have hkids := skelNs_eq s children children' kind field (isBodyNode pk field kind) (bodyKinds.contains kind) [] [] i
      h9 hp.2 hl (fun x hx => hf.kid hx) (fun c hc => hNK.here c hc) e1.2 e2.2
      (fun h x hx => hf.here.1.ctor h x hx)
      (arounds_kids (n := .mk id kind named extra err field sr er sb eb text children) hf.here.2 hNK h9 hp.2 hl e1.1 e2.1
        (fun h => Lines.body_kinds h hk))
    refine ⟨?_, by rw [late]; exact hkids.2⟩
    rw [Node.skel, Node.skel]
    simp only [hkids.1, har, h8, ← hsh, Skel.mk.injEq, true_and, and_true]
    split
    · rename_i hs
      rw [hspell hs]
    · rfl
theorem skelNs_eq (s : Str) : ∀ (as bs : List Node) (pk : String) (pf : Option String) (body kb : Bool) (l l' : List Node) (i : Nat),
    alikeNs pk pf as bs = true → placedNs s i bs = true → linedNs s kb i as = true → (∀ x ∈ as, All Both x) →
    (∀ x ∈ as, x.extra = true → Note x) → lateNotess as = true → lateNotess bs = true →
    (pk = "constructor_declaration" → ∀ x ∈ as, x.field = some "body" → x.kind = "constructor_body") →
    Arounds body l l' as bs →
    skels false pk pf body l as = skels false pk pf body l' bs ∧ lates pk body bs = true
  | [], [], _, _, _, _, _, _, _, _, _, _, _, _, _, _, _, _ => by rw [skels, skels, lates]; simp
  | [], _ :: _, _, _, _, _, _, _, _, h, _, _, _, _, _, _, _, _ => by simp [alikeNs] at h
  | _ :: _, [], _, _, _, _, _, _, _, h, _, _, _, _, _, _, _, _ => by simp [alikeNs] at h
  | a :: as, b :: bs, pk, pf, body, kb, l, l', i, ha, hp, hl, hf, hn, e1, e2, hk, har => by
    rw [alikeNs, Bool.and_eq_true] at ha
    rw [placedNs, Bool.and_eq_true] at hp
    rw [linedNs, Bool.and_eq_true, Bool.and_eq_true] at hl
    rw [lateNotess, Bool.and_eq_true] at e1 e2
    obtain ⟨har1, har2, har3⟩ := har
    have hw := width_eq a b _ _ ha.1 (hn a (by simp)) ((hf a (by simp)).imp (fun _ h => sett_kids h.2))
    have h1 := skelN_eq s a b pk pf body l as l' bs i ha.1 hp.1 hl.1.1 (hf a (by simp)) (hn a (by simp)) e1.1 e2.1
      (fun h => hk h a (by simp)) har1
    have h2 := skelNs_eq s as bs pk pf body kb (a :: l) (b :: l') _ ha.2 hp.2 (by rw [hw]; exact hl.2) (fun x hx => hf x (by simp [hx]))
        (fun x hx => hn x (by simp [hx])) e1.2 e2.2 (fun h x hx => hk h x (by simp [hx])) har3
    refine ⟨by rw [skels, skels, h1.1, h2.1], ?_⟩
    rw [lates, h1.2, h2.2, har2]
    rfl
end

open Lines (retext retext_conforms neats_all Trim tidy_of) in
/-- The tree of the formatted text has the same skeleton. -/
theorem skeleton_again {checks : Bool} {depth : Nat} {cfg : Config} {a b : Node} {out : Str} (hcl : a.Closed)
    (hi : a.ids.Nodup) (hf : a.field = none) (hc : conforms a = true) (hs : settled a = true) (ht : neats a.children = true)
    (h : formatTree checks depth cfg a = .ok out) (hab : alikeN "" none a b = true) (hpl : placedNs out 0 b.children = true)
    (e1 : lateNotes a = true) (e2 : lateNotes b = true) :
    skeleton false a = skeleton false b ∧ late "" b = true := by
  have hl := format_linedN hcl hi hf hc hs ht h
  obtain ⟨hk, -, hex, hcf⟩ := conforms_root hc
  cases a with
  | mk id kind named extra err field sr er sb eb text children =>
  cases b with
  | mk id' kind' named' extra' err' field' sr' er' sb' eb' text' children' =>
    have hsh := shown_alikeN hab
    simp only [alikeN, Bool.and_eq_true, beq_iff_eq] at hab
    obtain ⟨⟨⟨⟨⟨⟨⟨rfl, rfl⟩, rfl⟩, rfl⟩, rfl⟩, h6⟩, h8⟩, h9⟩ := hab
    simp only at hk hex hf hpl ht
    subst hk hex hf
    rw [lateNotes, Bool.and_eq_true] at e1 e2
    rw [linedN] at hl
    have hsk : (Node.mk id "parser_output" named false err none sr er sb eb text children).shown "" none = false := by
      simp [Node.shown, wordField, wordKinds]
    by_cases hne : children = []
    · subst hne
      cases children' with
      | cons => simp [alikeNs] at h9
      | nil =>
        refine ⟨?_, by simp [late, lates]⟩
        rw [skeleton, skeleton, Node.skel, Node.skel]
        simp only [← hsh, hsk, h8, Bool.false_eq_true, if_false, Skel.mk.injEq, true_and, skels, and_true]
        simp [around]
    · have h0 : All Trim (retext ['x'] (.mk id "parser_output" named false err none sr er sb eb text children)) :=
        .mk ⟨tidy_of (s := ['x']) (by decide), tidy_of (s := "parser_output".toList) (by decide +kernel)⟩ (neats_all children ht)
      have hboth := settled_all _ _ (conforms_root (retext_conforms ['x'] hc hne)).2.2.2 (by simpa [retext, settled] using hs)
        (h0.imp (fun n hn => .inr (Lines.Tidy.ink hn.1)))
      have hNK : All NoteKids (retext ['x'] (.mk id "parser_output" named false err none sr er sb eb text children)) :=
        hboth.imp (fun _ h => sett_kids h.2)
      have har := arounds_kids (body := true) (bs := children') hboth.here.2 hNK h9 hpl hl e1.1 e2.1 (fun _ => rfl)
      have hkids := skelNs_eq out children children' "parser_output" none true true [] [] 0 h9 hpl hl (fun c hc => hboth.kid hc)
        (fun c hc => hNK.here c hc) e1.2 e2.2 (fun h => absurd h (by decide)) har
      refine ⟨?_, by rw [late]; exact hkids.2⟩
      rw [skeleton, skeleton, Node.skel, Node.skel]
      simp only [← hsh, hsk, h8, Bool.false_eq_true, if_false, Skel.mk.injEq, true_and]
      exact ⟨by simp [around], hkids.1⟩

end Afmt.Notes
