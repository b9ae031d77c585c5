import Verif.Words.Mach
import Verif.ProgLemmas

/-!
# Word boundaries of the printed text

The machine of `Words/Mach` looks at programs.  Here it is followed through the documents and the printer: whenever the
machine does not fail, the words of the output are exactly the words of the pieces of code.
-/

namespace Afmt.Words
open Afmt.Gram

/-! ### The words of segments -/

/-- Whether the segments end within a word. -/
def segEnd (w : Bool) : List Seg → Bool
  | [] => w
  | .blank s :: ss => segEnd (endsWord w s) ss
  | .code s :: ss => segEnd (endsWord w s) ss
  | .comment _ _ :: ss => segEnd false ss

/-- The visible characters of the code among segments, with the flags of `letters`; comments and blanks end words. -/
def segLetters (w : Bool) : List Seg → List Letter
  | [] => []
  | .blank s :: ss => segLetters (endsWord w s) ss
  | .code s :: ss => letters w s ++ segLetters (endsWord w s) ss
  | .comment _ _ :: ss => segLetters false ss

/-- The visible characters of the code among items, every piece by itself. -/
def itemLetters : List Item → List Letter
  | [] => []
  | .code s :: is => letters false s ++ itemLetters is
  | .comment _ :: is => itemLetters is

theorem segEnd_append (ss ts : List Seg) : ∀ w, segEnd w (ss ++ ts) = segEnd (segEnd w ss) ts := by
  induction ss with
  | nil => intro w; rfl
  | cons s ss ih => intro w; cases s <;> exact ih _

theorem segLetters_append (ss ts : List Seg) : ∀ w, segLetters w (ss ++ ts) = segLetters w ss ++ segLetters (segEnd w ss) ts := by
  induction ss with
  | nil => intro w; rfl
  | cons s ss ih =>
    intro w
    cases s with
    | blank s => exact ih _
    | code s => simp only [List.cons_append, segLetters, segEnd, ih, List.append_assoc]
    | comment c i => exact ih _

theorem itemLetters_append (is js : List Item) : itemLetters (is ++ js) = itemLetters is ++ itemLetters js := by
  induction is with
  | nil => rfl
  | cons i is ih => cases i <;> simp [itemLetters, ih]

theorem endsWord_append (s t : Str) : ∀ w, endsWord w (s ++ t) = endsWord (endsWord w s) t := by
  induction s with
  | nil => intro w; rfl
  | cons c s ih => intro w; exact ih _

theorem endsWord_le {w w' : Bool} (h : w = true → w' = true) (s : Str) (hs : endsWord w s = true) : endsWord w' s = true := by
  cases s with
  | nil => exact h hs
  | cons c s => exact hs

/-- Segments that end within a word are printed as a text that ends within a word. -/
theorem segEnd_text (ss : List Seg) : ∀ w w', (w = true → w' = true) → segEnd w ss = true → endsWord w' (renderSegs ss) = true := by
  induction ss with
  | nil => intro w w' h hs; exact h hs
  | cons s ss ih =>
    intro w w' h hs
    rw [renderSegs_cons, endsWord_append]
    cases s with
    | blank s => exact ih _ _ (fun hx => endsWord_le h s hx) hs
    | code s => exact ih _ _ (fun hx => endsWord_le h s hx) hs
    | comment c i => exact ih _ _ (fun hx => by cases hx) hs

theorem endsWord_space {s : Str} (h : endsWithSpace s = true) (w : Bool) : endsWord w s = false := by
  unfold endsWithSpace at h
  have := List.getLast?_eq_some_iff.1 (by simpa using h)
  obtain ⟨t, rfl⟩ := this
  rw [endsWord_append]
  rfl

theorem endsWord_blanks {s : Str} (h : ink s = []) (w : Bool) (hs : s ≠ []) : endsWord w s = false := by
  have key : ∀ s : Str, ink s = [] → endsWord false s = false := by
    intro s
    induction s with
    | nil => intro _; rfl
    | cons c s ih =>
      intro h
      rw [ink, List.filter_cons] at h
      split at h
      · cases h
      · rename_i hb
        simp only [Bool.not_eq_true, Bool.not_eq_false'] at hb
        rw [endsWord, hb]
        exact ih h
  cases s with
  | nil => exact absurd rfl hs
  | cons c s => have := key _ h; exact this

/-! ### The machine along operations -/

/-- One operation or comment. -/
def wstep (a : St) : TOp → St
  | .op (.text s _) => tx a s
  | .op .flush => a
  | .op _ => rs a
  | .comment _ _ => rs a

/-- Operations and comments one after the other. -/
def wrun (a : St) : List TOp → St
  | [] => a
  | t :: ts => wrun (wstep a t) ts

theorem wstep_bad (t : TOp) : wstep .bad t = .bad := by
  cases t with
  | op o => cases o <;> rfl
  | comment c i => rfl

theorem wrun_bad (ts : List TOp) : wrun .bad ts = .bad := by
  induction ts with
  | nil => rfl
  | cons t ts ih => rw [wrun, wstep_bad, ih]

theorem wrun_append (ss ts : List TOp) : ∀ a, wrun a (ss ++ ts) = wrun (wrun a ss) ts := by
  induction ss with
  | nil => intro a; rfl
  | cons s ss ih => intro a; exact ih _

/-- The words so far are those of the items, and between words the output does not end within a word. -/
structure WInv (ss : List Seg) (st : PSt) (a : St) : Prop where
  seg : SegInv ss st
  words : segLetters false ss = itemLetters (itemsOf ss)
  stop : a = .S → segEnd false ss = false ∨ st.pend.isSome = true

theorem WInv.flush {ss : List Seg} {st : PSt} {a : St} (h : WInv ss st a) :
    WInv (ss ++ flushSegs st) st.flush a ∧ (a = .S → segEnd false (ss ++ flushSegs st) = false) := by
  have key : segLetters false (ss ++ flushSegs st) = itemLetters (itemsOf (ss ++ flushSegs st)) ∧
      (a = .S → segEnd false (ss ++ flushSegs st) = false) := by
    rw [segLetters_append, itemsOf_append, itemsOf_flushSegs, List.append_nil, h.words, segEnd_append]
    unfold flushSegs
    cases hp : st.pend with
    | none =>
      refine ⟨by simp [segLetters], fun ha => ?_⟩
      rcases h.stop ha with h1 | h1
      · exact h1
      · rw [hp] at h1; cases h1
    | some i =>
      refine ⟨by simp [segLetters], fun _ => ?_⟩
      exact endsWord_blanks (by simp) _ (by simp)
  exact ⟨⟨h.seg.flushE, key.1, fun ha => .inl (key.2 ha)⟩, key.2⟩

theorem WInv.put {ss : List Seg} {st : PSt} {a : St} (h : WInv ss st a) (hs : a = .S → segEnd false ss = false)
    (hp : st.pend = none) (s : Str) (n : Nat) (ha : tx a s ≠ .bad) : WInv (ss ++ putSegs st s) (st.putText s n) (tx a s) := by
  have hw : segEnd false ss = true → a = .U := by
    intro e
    cases a with
    | S => rw [hs rfl] at e; cases e
    | U => rfl
    | bad => exact absurd rfl ha
  have hend : tx a s = .S → endsWord (segEnd false ss) s = false := by
    intro ht
    cases a with
    | S =>
      rw [hs rfl]
      simp only [tx] at ht
      cases he : endsWord false s with
      | false => rfl
      | true => rw [he] at ht; cases ht
    | U =>
      simp only [tx] at ht
      cases he : endsWord true s with
      | false =>
        cases he' : endsWord (segEnd false ss) s with
        | false => rfl
        | true => rw [endsWord_le (fun _ => rfl) s he'] at he; cases he
      | true => rw [he] at ht; split at ht <;> cases ht
    | bad => cases ht
  refine ⟨h.seg.putE hp s n, ?_, fun ht => .inl ?_⟩
  · rw [segLetters_append, itemsOf_append, itemLetters_append, h.words, itemsOf_putSegs]
    congr 1
    unfold putSegs codeItem
    split
    · rename_i hx; rw [hx.1]; rfl
    · split
      · simp [segLetters, itemLetters]
      · simp only [segLetters, itemLetters, List.append_nil]
        cases he : segEnd false ss with
        | false => rfl
        | true =>
          have hu := hw he
          subst hu
          refine letters_head ?_ _
          cases hh : headWord s with
          | false => rfl
          | true => exact absurd (by simp [tx, hh]) ha
  · rw [segEnd_append]
    unfold putSegs
    split
    · rename_i hx
      cases he : segEnd false ss with
      | false => rfl
      | true =>
        have := segEnd_text ss false false id he
        rw [← h.seg.out, endsWord_space hx.2] at this
        cases this
    · split <;> exact hend ht

theorem WInv.run {ss : List Seg} {st : PSt} {a : St} (h : WInv ss st a) (t : TOp) (ht : t.ok) (ha : wstep a t ≠ .bad) :
    WInv (ss ++ tSegs st t) (runOps t.ops st) (wstep a t) := by
  have hr := h.seg.runTE t ht
  cases t with
  | comment c i =>
    refine ⟨hr, ?_, fun _ => .inl ?_⟩
    · have := h.flush.1.words
      rw [tSegs, ← List.append_assoc, segLetters_append, itemsOf_append, itemLetters_append, this]
      rfl
    · rw [tSegs, ← List.append_assoc, segEnd_append]; rfl
  | op o =>
    cases o with
    | flush => exact h.flush.1
    | pend i =>
      refine ⟨hr, ?_, fun _ => .inr rfl⟩
      simp only [tSegs, opSegs, List.append_nil]
      exact h.words
    | bare =>
      refine ⟨hr, ?_, fun _ => .inl ?_⟩
      · simp only [tSegs, opSegs, segLetters_append, itemsOf_append, itemLetters_append, h.words]; rfl
      · simp only [tSegs, opSegs, segEnd_append]; rfl
    | space =>
      refine ⟨hr, ?_, fun _ => .inl ?_⟩
      · simp only [tSegs, opSegs, segLetters_append, itemsOf_append, itemLetters_append, h.words]; rfl
      · simp only [tSegs, opSegs, segEnd_append]; rfl
    | text s n =>
      have h1 := h.flush
      have := h1.1.put h1.2 (st.flush_pend) s n ha
      rw [tSegs, opSegs, ← List.append_assoc]
      exact this

theorem WInv.runs {ss : List Seg} {st : PSt} {a : St} (h : WInv ss st a) (ts : List TOp) (ht : ∀ t ∈ ts, t.ok)
    (ha : wrun a ts ≠ .bad) :
    ∃ ss', WInv ss' (runOps (ts.flatMap TOp.ops) st) (wrun a ts) ∧ itemsOf ss' = itemsOf ss ++ ts.flatMap TOp.items := by
  induction ts generalizing ss st a with
  | nil => exact ⟨ss, h, by simp⟩
  | cons t ts ih =>
    have h1 := h.run t (ht t (by simp)) (fun e => ha (by rw [wrun, e, wrun_bad]))
    obtain ⟨s2, h2, e2⟩ := ih h1 (fun x hx => ht x (by simp [hx])) ha
    refine ⟨s2, ?_, ?_⟩
    · rw [List.flatMap_cons, runOps_append]; exact h2
    · rw [e2, itemsOf_append, itemsOf_tSegs]; simp

/-! ### Documents -/

/-- The document stands for the items; printed in a state of at most `a` the machine ends in a state of at most `e`. -/
def W (w : Nat) (d : Doc) (is : List Item) (a e : St) : Prop :=
  ∀ (i : Nat) (fl : Bool) (rest : List Chunk) (st : PSt) (b : St), b ≤ a → ∃ ts : List TOp,
    pr w d i fl rest st = runOps (ts.flatMap TOp.ops) st ∧ ts.flatMap TOp.items = is ∧ (∀ t ∈ ts, t.ok) ∧ wrun b ts ≤ e

/-- The same for documents one after the other. -/
def WL (w : Nat) (ds : List Doc) (is : List Item) (a e : St) : Prop :=
  ∀ (i : Nat) (fl : Bool) (rest : List Chunk) (st : PSt) (b : St), b ≤ a → ∃ ts : List TOp,
    prs w ds i fl rest st = runOps (ts.flatMap TOp.ops) st ∧ ts.flatMap TOp.items = is ∧ (∀ t ∈ ts, t.ok) ∧ wrun b ts ≤ e

section
variable {w : Nat} {d : Doc} {ds : List Doc} {is js : List Item} {a b e e' : St}

theorem W.le (h : W w d is a e) (hb : b ≤ a) (he : e ≤ e') : W w d is b e' := by
  intro i fl rest st c hc
  obtain ⟨ts, h1, h2, h3, h4⟩ := h i fl rest st c (St.le_trans hc hb)
  exact ⟨ts, h1, h2, h3, St.le_trans h4 he⟩
theorem WL.le (h : WL w ds is a e) (hb : b ≤ a) (he : e ≤ e') : WL w ds is b e' := by
  intro i fl rest st c hc
  obtain ⟨ts, h1, h2, h3, h4⟩ := h i fl rest st c (St.le_trans hc hb)
  exact ⟨ts, h1, h2, h3, St.le_trans h4 he⟩

theorem W_text (s : Str) (n : Nat) : W w (.text s n) (codeItem s) a (tx a s) := by
  intro i fl rest st b hb
  exact ⟨[.op (.text s n)], by simp [pr, TOp.ops, Op.run], by simp [TOp.items], by simp [TOp.ok], tx_mono hb s⟩
theorem W_comment (c : Comment) (hc : c.Tidy) : W w c.build [.comment c] a (rs a) := by
  intro i fl rest st b hb
  exact ⟨[.comment c i], by simp [TOp.ops, pr_comment], by simp [TOp.items], by simpa [TOp.ok] using hc, rs_mono hb⟩
theorem W_newline : W w .newline [] a (rs a) := by
  intro i fl rest st b hb
  exact ⟨[.op (.pend i)], by simp [pr, TOp.ops, Op.run], by simp [TOp.items], by simp [TOp.ok], rs_mono hb⟩
theorem W_newlineWithNoIndent : W w .newlineWithNoIndent [] a (rs a) := by
  intro i fl rest st b hb
  exact ⟨[.op .bare], by simp [pr, TOp.ops, Op.run], by simp [TOp.items], by simp [TOp.ok], rs_mono hb⟩
theorem W_forceBreak : W w .forceBreak [] a a := by
  intro i fl rest st b hb
  exact ⟨[], by simp [pr], by simp, by simp, hb⟩
theorem W_softline : W w .softline [] a (rs a) := by
  intro i fl rest st b hb
  cases fl
  · exact ⟨[.op (.pend i)], by simp [pr, TOp.ops, Op.run], by simp [TOp.items], by simp [TOp.ok], rs_mono hb⟩
  · exact ⟨[.op .space], by simp [pr, TOp.ops, Op.run], by simp [TOp.items], by simp [TOp.ok], rs_mono hb⟩
theorem W_maybeline : W w .maybeline [] a a := by
  intro i fl rest st b hb
  cases fl
  · exact ⟨[.op (.pend i)], by simp [pr, TOp.ops, Op.run], by simp [TOp.items], by simp [TOp.ok], St.le_trans (rs_le b) hb⟩
  · exact ⟨[], by simp [pr], by simp, by simp, hb⟩
theorem W_flat (h : W w d is a e) : W w (.flat d) is a e := by
  intro i fl rest st b hb
  simpa only [pr] using h i true rest st b hb
theorem W_indent {n : Nat} (h : W w d is a e) : W w (.indent n d) is a e := by
  intro i fl rest st b hb
  simpa only [pr] using h _ fl rest st b hb
theorem W_dedent {n : Nat} (h : W w d is a e) : W w (.dedent n d) is a e := by
  intro i fl rest st b hb
  simpa only [pr] using h _ fl rest st b hb
theorem W_concat (h : WL w ds is a e) : W w (.concat ds) is a e := by
  intro i fl rest st b hb
  simpa only [pr] using h i fl rest st b hb
theorem W_group (h : W w d is a e) : W w (.choice (.flat d) d) is a e := by
  intro i fl rest st b hb
  have key : ∀ st', (∃ ts : List TOp, st' = runOps (ts.flatMap TOp.ops) st.flush ∧ ts.flatMap TOp.items = is ∧
      (∀ t ∈ ts, t.ok) ∧ wrun b ts ≤ e) → ∃ ts : List TOp, st' = runOps (ts.flatMap TOp.ops) st ∧
      ts.flatMap TOp.items = is ∧ (∀ t ∈ ts, t.ok) ∧ wrun b ts ≤ e := by
    rintro st' ⟨ts, h1, h2, h3, h4⟩
    refine ⟨.op .flush :: ts, ?_, by simpa [TOp.items] using h2, ?_, h4⟩
    · rw [h1]; simp [TOp.ops, Op.run]
    · intro t ht
      rcases List.mem_cons.1 ht with rfl | ht
      · trivial
      · exact h3 t ht
  have hx := key _ (h i true rest st.flush b hb)
  have hy := key _ (h i fl rest st.flush b hb)
  simp only [pr]
  split
  · exact hx
  · split
    · exact hx
    · exact hy
theorem WL_nil : WL w [] [] a a := by
  intro i fl rest st b hb
  exact ⟨[], by simp [prs], by simp, by simp, hb⟩
theorem WL_cons (h : W w d is a e) (h' : WL w ds js e e') : WL w (d :: ds) (is ++ js) a e' := by
  intro i fl rest st b hb
  obtain ⟨t1, e1, i1, o1, w1⟩ := h i fl (ds.map (fun d => { doc := d, indent := i, flat := fl }) ++ rest) st b hb
  obtain ⟨t2, e2, i2, o2, w2⟩ := h' i fl rest
    (pr w d i fl (ds.map (fun d => { doc := d, indent := i, flat := fl }) ++ rest) st) _ w1
  refine ⟨t1 ++ t2, ?_, ?_, ?_, ?_⟩
  · rw [prs, e2, List.flatMap_append, runOps_append, e1]
  · rw [List.flatMap_append, i1, i2]
  · intro t ht
    rcases List.mem_append.1 ht with ht | ht
    · exact o1 t ht
    · exact o2 t ht
  · rw [wrun_append]; exact w2
theorem WL_single (h : W w d is a e) : WL w [d] is a e := by
  have := WL_cons h (WL_nil (a := e))
  rwa [List.append_nil] at this
theorem prs_append (w : Nat) (es : List Doc) (i : Nat) (fl : Bool) (rest : List Chunk) : ∀ (ds : List Doc) (st : PSt),
    prs w (ds ++ es) i fl rest st =
      prs w es i fl rest (prs w ds i fl (es.map (fun d => { doc := d, indent := i, flat := fl }) ++ rest) st) := by
  intro ds
  induction ds with
  | nil => intro st; simp [prs]
  | cons d ds ih => intro st; rw [List.cons_append, prs, ih, prs, List.map_append, List.append_assoc]
theorem WL_append : ∀ {ds : List Doc} {is : List Item} {a : St}, WL w ds is a e → ∀ {es : List Doc}, WL w es js e e' →
    WL w (ds ++ es) (is ++ js) a e' := by
  intro ds is a h es h'
  intro i fl rest st b hb
  obtain ⟨t1, e1, i1, o1, w1⟩ := h i fl (es.map (fun d => { doc := d, indent := i, flat := fl }) ++ rest) st b hb
  obtain ⟨t2, e2, i2, o2, w2⟩ := h' i fl rest
    (prs w ds i fl (es.map (fun d => { doc := d, indent := i, flat := fl }) ++ rest) st) _ w1
  refine ⟨t1 ++ t2, ?_, ?_, ?_, ?_⟩
  · rw [prs_append, e2, List.flatMap_append, runOps_append, e1]
  · rw [List.flatMap_append, i1, i2]
  · intro t ht
    rcases List.mem_append.1 ht with ht | ht
    · exact o1 t ht
    · exact o2 t ht
  · rw [wrun_append]; exact w2

theorem W_nl : W w nl [] a (rs a) := W_newline
theorem rs_idem (a : St) : rs (rs a) = rs a := by cases a <;> rfl
theorem W_emptyNewLine : W w emptyNewLine [] a (rs a) := by
  have := WL_cons (W_newlineWithNoIndent (w := w) (a := a)) (WL_single W_newline)
  rw [rs_idem] at this
  exact W_concat this
theorem tx_space (a : St) : tx a [' '] ≤ rs a := by cases a <;> decide
theorem W_space : W w (txt [' ']) [] a (rs a) := by
  have := W_text (w := w) (a := a) [' '] (byteLen [' '])
  rw [show codeItem [' '] = [] from rfl] at this
  exact this.le (St.le_refl _) (tx_space a)

theorem W_postLead (c : Comment) : W w (postLead c) [] a (rs a) := by
  unfold postLead
  split
  · exact W_space
  · split
    · exact W_emptyNewLine
    · exact W_nl

theorem WL_postTrail (c : Comment) : WL w (postTrail c) [] a a := by
  unfold postTrail
  split
  · exact (WL_single W_space).le (St.le_refl _) (rs_le a)
  · exact WL_nil

theorem WL_postDocs (cs : List Comment) (h : ∀ c ∈ cs, c.Tidy) : ∀ a, WL w (postDocs cs) (commentItems cs) a a := by
  induction cs with
  | nil => intro a; exact WL_nil
  | cons c cs ih =>
    intro a
    have h1 := ih (fun x hx => h x (by simp [hx])) (rs a)
    have h2 := WL_append (WL_postTrail (a := rs a) c) h1
    have h3 := W_comment (w := w) (a := rs a) c (h c (by simp))
    rw [rs_idem] at h3
    have := WL_cons (W_postLead (a := a) c) (WL_cons h3 h2)
    exact WL.le (by simpa [postDocs, commentItems] using this) (St.le_refl _) (rs_le a)

theorem WL_preDocs (cs : List Comment) (h : ∀ c ∈ cs, c.Tidy) : ∀ first a, WL w (preDocs first cs) (commentItems cs) a a := by
  induction cs with
  | nil => intro _ a; exact WL_nil
  | cons c cs ih =>
    intro first a
    have h1 := ih (fun x hx => h x (by simp [hx])) false a
    have hA : WL w (if c.meta'.hasLeadingContent then [txt [' ']]
        else Doc.forceBreak :: (if first then [] else if c.meta'.hasEmptyLineAbove then [emptyNewLine] else [nl])) [] a a := by
      split
      · exact (WL_single W_space).le (St.le_refl _) (rs_le a)
      · have : WL w (if first then [] else if c.meta'.hasEmptyLineAbove then [emptyNewLine] else [nl]) [] a a := by
          split
          · exact WL_nil
          · split
            · exact (WL_single W_emptyNewLine).le (St.le_refl _) (rs_le a)
            · exact (WL_single W_nl).le (St.le_refl _) (rs_le a)
        have := WL_cons W_forceBreak this
        simpa using this
    have hB : WL w (if c.meta'.hasTrailingContent then [txt [' ']]
        else if cs = [] then (if c.meta'.hasEmptyLineBelow then [emptyNewLine] else [nl]) else []) [] a a := by
      split
      · exact (WL_single W_space).le (St.le_refl _) (rs_le a)
      · split
        · split
          · exact (WL_single W_emptyNewLine).le (St.le_refl _) (rs_le a)
          · exact (WL_single W_nl).le (St.le_refl _) (rs_le a)
        · exact WL_nil
    have hC := (W_comment (w := w) (a := a) c (h c (by simp))).le (St.le_refl _) (rs_le a)
    have := WL_append (WL_append (WL_append hA (WL_single hC)) hB) h1
    simpa [preDocs, commentItems] using this

theorem WL_danglingDocs (cs : List Comment) (h : ∀ c ∈ cs, c.Tidy) (hne : cs ≠ []) : ∀ a,
    WL w (danglingDocs cs) (commentItems cs) a (rs a) := by
  induction cs with
  | nil => exact absurd rfl hne
  | cons c cs ih =>
    intro a
    have h1 : WL w (danglingDocs cs) (commentItems cs) (rs a) (rs a) := by
      cases cs with
      | nil => exact WL_nil
      | cons x xs =>
        have := ih (fun x hx => h x (by simp [hx])) (by simp) (rs a)
        rwa [rs_idem] at this
    have hA : WL w (if c.meta'.hasLeadingContent then [txt [' ']]
        else if c.meta'.hasEmptyLineAbove then [emptyNewLine]
        else if c.meta'.hasPrevNode then [nl] else []) [] a a := by
      split
      · exact (WL_single W_space).le (St.le_refl _) (rs_le a)
      · split
        · exact (WL_single W_emptyNewLine).le (St.le_refl _) (rs_le a)
        · split
          · exact (WL_single W_nl).le (St.le_refl _) (rs_le a)
          · exact WL_nil
    have := WL_append (WL_append hA (WL_single (W_comment c (h c (by simp))))) h1
    simpa [danglingDocs, commentItems] using this

theorem WL_map_build (cs : List Comment) (h : ∀ c ∈ cs, c.Tidy) : ∀ a,
    WL w (cs.map Comment.build) (commentItems cs) a a := by
  induction cs with
  | nil => intro a; exact WL_nil
  | cons c cs ih =>
    intro a
    exact WL_cons ((W_comment c (h c (by simp))).le (St.le_refl _) (rs_le a)) (ih (fun x hx => h x (by simp [hx])) a)

theorem WL_puncDocs (b : Bucket) (p : Punc) (h : ∀ c ∈ b.all, c.Tidy) :
    WL w (puncDocs b p) (commentItems (b.pre.filter (fun c => !c.isLine)) ++ (codeItem p.text ++
        commentItems (b.pre.filter Comment.isLine ++ b.post))) a (tx a p.text) := by
  have h1 := WL_postDocs (w := w) (b.pre.filter (fun c => !c.isLine))
    (fun c hc => h c (by simp only [Bucket.all, List.mem_append]; exact .inl (.inl ((List.mem_filter.1 hc).1)))) a
  have h2 := WL_postDocs (w := w) (b.pre.filter Comment.isLine ++ b.post) (by
    intro c hc
    rcases List.mem_append.1 hc with hc | hc
    · exact h c (by simp only [Bucket.all, List.mem_append]; exact .inl (.inl ((List.mem_filter.1 hc).1)))
    · exact h c (by simp only [Bucket.all, List.mem_append]; exact .inl (.inr hc))) (tx a p.text)
  have := WL_append (WL_append h1 (WL_single (W_text p.text (byteLen p.text)))) h2
  simpa [puncDocs, txt] using this
end

/-! ### Programs -/

mutual
theorem build_w (w k : Nat) (cm : CMap) (ht : ∀ c ∈ cm.all, c.Tidy) : ∀ (p : Prog) {is : List Item} {log log' : List Comment} {d : Doc},
    p.items cm = .ok (is, log) → p.build k cm = .ok (d, log') → ∀ a, W w d is a (exec a p)
  | .txt s, is, log, log', d, hi, hb, a => by cases hi; cases hb; exact W_text s _
  | .nl, is, log, log', d, hi, hb, a => by cases hi; cases hb; exact W_newline
  | .softline, is, log, log', d, hi, hb, a => by cases hi; cases hb; exact W_softline
  | .maybeline, is, log, log', d, hi, hb, a => by cases hi; cases hb; exact W_maybeline
  | .forceBreak, is, log, log', d, hi, hb, a => by cases hi; cases hb; exact W_forceBreak
  | .sep true, is, log, log', d, hi, hb, a => by cases hi; cases hb; exact W_emptyNewLine
  | .sep false, is, log, log', d, hi, hb, a => by cases hi; cases hb; exact W_newline
  | .concat ps, is, log, log', d, hi, hb, a => by
      simp only [Prog.build] at hb
      simp only [Prog.items] at hi
      split at hb
      · rename_i ds l hds
        cases hb
        exact W_concat (builds_w w k cm ht ps hi hds a)
      · cases hb
  | .group p, is, log, log', d, hi, hb, a => by
      simp only [Prog.build] at hb
      simp only [Prog.items] at hi
      split at hb
      · rename_i ds l hds
        cases hb
        exact W_group (build_w w k cm ht p hi hds a)
      · cases hb
  | .indent p, is, log, log', d, hi, hb, a => by
      simp only [Prog.build] at hb
      simp only [Prog.items] at hi
      split at hb
      · rename_i ds l hds
        cases hb
        exact W_indent (build_w w k cm ht p hi hds a)
      · cases hb
  | .dedent p, is, log, log', d, hi, hb, a => by
      simp only [Prog.build] at hb
      simp only [Prog.items] at hi
      split at hb
      · rename_i ds l hds
        cases hb
        exact W_dedent (build_w w k cm ht p hi hds a)
      · cases hb
  | .pre id, is, log, log', d, hi, hb, a => by
      simp only [Prog.build, Prog.items] at hb hi
      cases h : getBucket cm id with
      | error e => rw [h] at hb; cases hb
      | ok b =>
        rw [h] at hb hi
        cases hb; cases hi
        have := getBucket_mem h
        exact W_concat (WL_preDocs _ (fun c hc => ht c (this c (by simp [Bucket.all, hc]))) _ _)
  | .post id, is, log, log', d, hi, hb, a => by
      simp only [Prog.build, Prog.items] at hb hi
      cases h : getBucket cm id with
      | error e => rw [h] at hb; cases hb
      | ok b =>
        rw [h] at hb hi
        cases hb; cases hi
        have := getBucket_mem h
        exact W_concat (WL_postDocs _ (fun c hc => ht c (this c (by simp [Bucket.all, hc]))) _)
  | .dangling id, is, log, log', d, hi, hb, a => by
      simp only [Prog.build, Prog.items] at hb hi
      cases h : getBucket cm id with
      | error e => rw [h] at hb; cases hb
      | ok b =>
        rw [h] at hb hi
        dsimp only at hb hi
        split at hb
        · cases hb
        · rename_i hne
          rw [if_neg hne] at hi
          cases hb; cases hi
          have := getBucket_mem h
          exact W_concat (WL_danglingDocs _ (fun c hc => ht c (this c (by simp [Bucket.all, hc]))) hne _)
  | .rootDangling id, is, log, log', d, hi, hb, a => by
      simp only [Prog.build, Prog.items] at hb hi
      cases h : getBucket cm id with
      | error e => rw [h] at hb; cases hb
      | ok b =>
        rw [h] at hb hi
        cases hb; cases hi
        have := getBucket_mem h
        exact W_concat (WL_map_build _ (fun c hc => ht c (this c (by simp [Bucket.all, hc]))) _)
  | .punct p, is, log, log', d, hi, hb, a => by
      simp only [Prog.build, Prog.items] at hb hi
      cases h : getBucket cm p.id with
      | error e => rw [h] at hb; cases hb
      | ok b =>
        rw [h] at hb hi
        cases hb; cases hi
        have := getBucket_mem h
        exact W_concat (WL_puncDocs b p (fun c hc => ht c (this c hc)))
  | .ifDangling id p q, is, log, log', d, hi, hb, a => by
      simp only [Prog.build, Prog.items] at hb hi
      cases h : getBucket cm id with
      | error e => rw [h] at hb; cases hb
      | ok b =>
        rw [h] at hb hi
        dsimp only at hb hi
        rw [exec]
        split at hb
        · rename_i hne
          rw [if_pos hne] at hi
          exact (build_w w k cm ht p hi hb a).le (St.le_refl _) (up_left _ _)
        · rename_i hne
          rw [if_neg hne] at hi
          exact (build_w w k cm ht q hi hb a).le (St.le_refl _) (up_right _ _)
  | .fail e, is, log, log', d, hi, hb, a => by cases hi
theorem builds_w (w k : Nat) (cm : CMap) (ht : ∀ c ∈ cm.all, c.Tidy) : ∀ (ps : List Prog) {is : List Item} {log log' : List Comment}
    {ds : List Doc}, Prog.itemss cm ps = .ok (is, log) → Prog.builds k cm ps = .ok (ds, log') → ∀ a, WL w ds is a (execs a ps)
  | [], is, log, log', ds, hi, hb, a => by cases hi; cases hb; exact WL_nil
  | p :: ps, is, log, log', ds, hi, hb, a => by
      simp only [Prog.builds] at hb
      simp only [Prog.itemss] at hi
      cases h1 : Prog.build k cm p with
      | error e => rw [h1] at hb; cases hb
      | ok x =>
        cases h2 : Prog.builds k cm ps with
        | error e => rw [h1, h2] at hb; cases hb
        | ok y =>
          cases h3 : Prog.items cm p with
          | error e => rw [h3] at hi; cases hi
          | ok z =>
            cases h4 : Prog.itemss cm ps with
            | error e => rw [h3, h4] at hi; cases hi
            | ok u =>
              rw [h1, h2] at hb
              rw [h3, h4] at hi
              cases hb; cases hi
              exact WL_cons (build_w w k cm ht p h3 h1 a) (builds_w w k cm ht ps h4 h2 _)
end

/-- The output of a program on which the machine does not fail: the words of the segments are the words of the items. -/
theorem layout_words (w k : Nat) (cm : CMap) (ht : ∀ c ∈ cm.all, c.Tidy) {p : Prog} {is : List Item} {log log' : List Comment}
    {d : Doc} (hi : p.items cm = .ok (is, log)) (hb : p.build k cm = .ok (d, log')) (hx : exec .S p ≠ .bad) :
    ∃ ss : List Seg, layout w d = renderSegs ss ∧ itemsOf ss = is ∧ SegsOk ss ∧ segLetters false ss = itemLetters is := by
  obtain ⟨ts, e, hi, hok, hw⟩ := build_w w k cm ht p hi hb .S 0 false [] PSt.init .S (St.le_refl _)
  have h0 : WInv [] PSt.init .S := ⟨⟨rfl, by simp, by intro a c i b e; simp at e⟩, rfl, fun _ => .inl rfl⟩
  obtain ⟨s1, h1, e1⟩ := h0.runs ts hok (St.ne_bad hw hx)
  have h2 := h1.flush.1
  have e2 : itemsOf (s1 ++ flushSegs (runOps (ts.flatMap TOp.ops) PSt.init)) = is := by
    rw [itemsOf_append, itemsOf_flushSegs, e1, hi]; simp [itemsOf]
  refine ⟨_, ?_, e2, ⟨h2.seg.blank, ?_⟩, by rw [h2.words, e2]⟩
  · rw [layout, e]; exact h2.seg.out
  · intro a c i b hs hc
    have := h2.seg.line a c i b hs hc
    rw [PSt.flush_pend] at this
    exact this.none

end Afmt.Words
