import Verif.Comment
import Verif.PrinterLemmas2

/-!
# What is printed: code pieces, comments, and blanks in between

A document made by the builder stands for a sequence of items: pieces of code and whole comments.  The printer writes
exactly these items, in this order, with only blanks (spaces and newlines) in between; and after a line comment the line
ends.  This file makes that precise and proves it for every document.
-/

namespace Afmt

/-- A printed item: a piece of code or a comment. -/
inductive Item where
  | code (s : Str)
  | comment (c : Comment)
  deriving DecidableEq

/-- A text leaf as item; blank texts are no items. -/
def codeItem (s : Str) : List Item := if ink s = [] then [] else [.code s]

/-- The comments among items. -/
def commentsOf (is : List Item) : List Comment := is.filterMap fun
  | .code _ => none
  | .comment c => some c

/-- The code among items. -/
def codeOf (is : List Item) : List Str := is.filterMap fun
  | .code s => some s
  | .comment _ => none

/-- The comment text does not end with a blank. -/
def Comment.Tidy (c : Comment) : Prop := endsWithSpace c.value = false

mutual
/-- `d.Items is`: the document stands for the items `is`. -/
inductive Doc.Items : Doc → List Item → Prop
  | text (s n) : Doc.Items (.text s n) (codeItem s)
  | comment (c : Comment) : c.Tidy → Doc.Items c.build [.comment c]
  | newline : Doc.Items .newline []
  | newlineWithNoIndent : Doc.Items .newlineWithNoIndent []
  | forceBreak : Doc.Items .forceBreak []
  | softline : Doc.Items .softline []
  | maybeline : Doc.Items .maybeline []
  | flat {d is} : Doc.Items d is → Doc.Items (.flat d) is
  | indent {n d is} : Doc.Items d is → Doc.Items (.indent n d) is
  | dedent {n d is} : Doc.Items d is → Doc.Items (.dedent n d) is
  | concat {ds is} : Doc.ItemsL ds is → Doc.Items (.concat ds) is
  | group {d is} : Doc.Items d is → Doc.Items (.choice (.flat d) d) is
inductive Doc.ItemsL : List Doc → List Item → Prop
  | nil : Doc.ItemsL [] []
  | cons {d ds is js} : Doc.Items d is → Doc.ItemsL ds js → Doc.ItemsL (d :: ds) (is ++ js)
end

theorem Doc.ItemsL.append {ds es : List Doc} {is js : List Item} (h : Doc.ItemsL ds is) (h' : Doc.ItemsL es js) :
    Doc.ItemsL (ds ++ es) (is ++ js) := by
  induction ds generalizing is with
  | nil => cases h; exact h'
  | cons d ds ih =>
    cases h with
    | cons h1 h2 => rw [List.append_assoc]; exact .cons h1 (ih h2)

theorem Doc.ItemsL.single {d : Doc} {is : List Item} (h : Doc.Items d is) : Doc.ItemsL [d] is := by
  have := Doc.ItemsL.cons h .nil
  simpa using this

/-! ### Operations with whole comments -/

/-- Printer operations for the lines of a block comment at indentation `i`. -/
def linesOps (i : Nat) : List Str → List Op
  | [] => []
  | [l] => [.text l (byteLen l)]
  | l :: ls => .text l (byteLen l) :: .pend i :: linesOps i ls

/-- Printer operations for a comment at indentation `i`. -/
def commentOps (c : Comment) (i : Nat) : List Op :=
  match c.type with
  | .line => [.text c.value (byteLen c.value), .pend i]
  | .block => linesOps i (blockLines c.value)

/-- A primitive operation or a whole comment. -/
inductive TOp where
  | op (o : Op)
  | comment (c : Comment) (i : Nat)

def TOp.ops : TOp → List Op
  | .op o => [o]
  | .comment c i => commentOps c i

def TOp.items : TOp → List Item
  | .op (.text s _) => codeItem s
  | .op _ => []
  | .comment c _ => [.comment c]

def TOp.ok : TOp → Prop
  | .op _ => True
  | .comment c _ => c.Tidy

theorem prs_linesDoc (w : Nat) (ls : List Str) : ∀ (i : Nat) (fl : Bool) (rest : List Chunk) (st : PSt),
    prs w (linesDoc ls) i fl rest st = runOps (linesOps i ls) st := by
  induction ls with
  | nil => intro i fl rest st; simp [linesDoc, linesOps, prs]
  | cons l ls ih =>
    intro i fl rest st
    cases ls with
    | nil => simp [linesDoc, linesOps, prs, txt, pr, Op.run]
    | cons m ms =>
      simp only [linesDoc, linesOps, prs, txt, nl, pr, runOps_cons, Op.run]
      rw [ih]

theorem pr_comment (w : Nat) (c : Comment) (i : Nat) (fl : Bool) (rest : List Chunk) (st : PSt) :
    pr w c.build i fl rest st = runOps (commentOps c i) st := by
  unfold Comment.build commentOps
  cases c.type with
  | line => simp [pr, prs, txt, nl, Op.run]
  | block => simp only [pr]; exact prs_linesDoc w _ i fl rest st

mutual
theorem pr_tops (w : Nat) {d : Doc} {is : List Item} (h : Doc.Items d is) : ∀ (i : Nat) (fl : Bool) (rest : List Chunk)
    (st : PSt), ∃ ts : List TOp, pr w d i fl rest st = runOps (ts.flatMap TOp.ops) st ∧ ts.flatMap TOp.items = is ∧
      ∀ t ∈ ts, t.ok := by
  intro i fl rest st
  cases h with
  | text s n => exact ⟨[.op (.text s n)], by simp [pr, TOp.ops, Op.run], by simp [TOp.items], by simp [TOp.ok]⟩
  | comment c hc =>
    exact ⟨[.comment c i], by simp [TOp.ops, pr_comment], by simp [TOp.items], by simpa [TOp.ok] using hc⟩
  | newline => exact ⟨[.op (.pend i)], by simp [pr, TOp.ops, Op.run], by simp [TOp.items], by simp [TOp.ok]⟩
  | newlineWithNoIndent => exact ⟨[.op .bare], by simp [pr, TOp.ops, Op.run], by simp [TOp.items], by simp [TOp.ok]⟩
  | forceBreak => exact ⟨[], by simp [pr], by simp, by simp⟩
  | softline =>
    cases fl
    · exact ⟨[.op (.pend i)], by simp [pr, TOp.ops, Op.run], by simp [TOp.items], by simp [TOp.ok]⟩
    · exact ⟨[.op .space], by simp [pr, TOp.ops, Op.run], by simp [TOp.items], by simp [TOp.ok]⟩
  | maybeline =>
    cases fl
    · exact ⟨[.op (.pend i)], by simp [pr, TOp.ops, Op.run], by simp [TOp.items], by simp [TOp.ok]⟩
    · exact ⟨[], by simp [pr], by simp, by simp⟩
  | flat h => simpa only [pr] using pr_tops w h i true rest st
  | indent h => simpa only [pr] using pr_tops w h _ fl rest st
  | dedent h => simpa only [pr] using pr_tops w h _ fl rest st
  | concat h => simpa only [pr] using prs_tops w h i fl rest st
  | @group d is h =>
    have hx := pr_tops w h i true rest st.flush
    have hy := pr_tops w h i fl rest st.flush
    have key : ∀ st', (∃ ts : List TOp, st' = runOps (ts.flatMap TOp.ops) st.flush ∧ ts.flatMap TOp.items = is ∧
        ∀ t ∈ ts, t.ok) → ∃ ts : List TOp, st' = runOps (ts.flatMap TOp.ops) st ∧ ts.flatMap TOp.items = is ∧
        ∀ t ∈ ts, t.ok := by
      rintro st' ⟨ts, h1, h2, h3⟩
      refine ⟨.op .flush :: ts, ?_, by simpa [TOp.items] using h2, ?_⟩
      · rw [h1]; simp [TOp.ops, Op.run]
      · intro t ht
        rcases List.mem_cons.1 ht with rfl | ht
        · trivial
        · exact h3 t ht
    simp only [pr]
    split
    · exact key _ hx
    · split
      · exact key _ hx
      · exact key _ hy
theorem prs_tops (w : Nat) {ds : List Doc} {is : List Item} (h : Doc.ItemsL ds is) : ∀ (i : Nat) (fl : Bool)
    (rest : List Chunk) (st : PSt), ∃ ts : List TOp, prs w ds i fl rest st = runOps (ts.flatMap TOp.ops) st ∧
      ts.flatMap TOp.items = is ∧ ∀ t ∈ ts, t.ok := by
  intro i fl rest st
  cases h with
  | nil => exact ⟨[], by simp [prs], by simp, by simp⟩
  | @cons d ds is js h1 h2 =>
    obtain ⟨t1, e1, i1, o1⟩ := pr_tops w h1 i fl (ds.map (fun d => { doc := d, indent := i, flat := fl }) ++ rest) st
    obtain ⟨t2, e2, i2, o2⟩ := prs_tops w h2 i fl rest
      (pr w d i fl (ds.map (fun d => { doc := d, indent := i, flat := fl }) ++ rest) st)
    refine ⟨t1 ++ t2, ?_, ?_, ?_⟩
    · rw [prs, e2, List.flatMap_append, runOps_append, e1]
    · rw [List.flatMap_append, i1, i2]
    · intro t ht
      rcases List.mem_append.1 ht with ht | ht
      · exact o1 t ht
      · exact o2 t ht
end

/-! ### Segments of the output -/

/-- Lines joined by a newline and `i` spaces. -/
def joinLines (i : Nat) : List Str → Str
  | [] => []
  | [l] => l
  | l :: ls => l ++ '\n' :: (spaces i ++ joinLines i ls)

/-- Text of a comment printed at indentation `i`: a line comment verbatim, a block comment as its lines. -/
def Comment.rendered (c : Comment) (i : Nat) : Str :=
  match c.type with
  | .line => c.value
  | .block => joinLines i (blockLines c.value)

/-- A segment of the output. -/
inductive Seg where
  | blank (s : Str)
  | code (s : Str)
  | comment (c : Comment) (i : Nat)

def Seg.render : Seg → Str
  | .blank s => s
  | .code s => s
  | .comment c i => c.rendered i

/-- Text of a sequence of segments. -/
def renderSegs (ss : List Seg) : Str := ss.flatMap Seg.render

def Seg.item : Seg → Option Item
  | .blank _ => none
  | .code s => some (.code s)
  | .comment c _ => some (.comment c)

/-- The items among segments. -/
def itemsOf (ss : List Seg) : List Item := ss.filterMap Seg.item

/-- The text goes on with blanks up to the end of the line. -/
def EndsLine (t : Str) : Prop := ∃ k t', t = spaces k ++ '\n' :: t'

/-- Blanks are blank, and after every line comment the line ends. -/
structure SegsOk (ss : List Seg) : Prop where
  blank : ∀ s, Seg.blank s ∈ ss → ink s = []
  line : ∀ a c i b, ss = a ++ Seg.comment c i :: b → c.type = .line → EndsLine (renderSegs b)

@[simp] theorem renderSegs_append (a b : List Seg) : renderSegs (a ++ b) = renderSegs a ++ renderSegs b := by
  simp [renderSegs]
@[simp] theorem renderSegs_nil : renderSegs [] = [] := rfl
@[simp] theorem renderSegs_single (s : Seg) : renderSegs [s] = s.render := by simp [renderSegs]
@[simp] theorem renderSegs_cons (s : Seg) (ss : List Seg) : renderSegs (s :: ss) = s.render ++ renderSegs ss := by
  simp [renderSegs]
@[simp] theorem itemsOf_append (a b : List Seg) : itemsOf (a ++ b) = itemsOf a ++ itemsOf b := by
  simp [itemsOf]

/-- The line of `t` is over, or will be with the pending newline. -/
def Open (t : Str) (pend : Option Nat) : Prop := EndsLine t ∨ ((∃ k, t = spaces k) ∧ pend.isSome = true)

/-- Invariant of the segmented output. -/
structure SegInv (ss : List Seg) (st : PSt) : Prop where
  out : st.out = renderSegs ss
  blank : ∀ s, Seg.blank s ∈ ss → ink s = []
  line : ∀ a c i b, ss = a ++ Seg.comment c i :: b → c.type = .line → Open (renderSegs b) st.pend

theorem EndsLine.append {t : Str} (h : EndsLine t) (u : Str) : EndsLine (t ++ u) := by
  obtain ⟨k, t', rfl⟩ := h
  exact ⟨k, t' ++ u, by simp⟩

/-- Appending segments: `hopen` says how an open tail continues. -/
theorem SegInv.add {ss : List Seg} {st st' : PSt} (h : SegInv ss st) (new : List Seg)
    (hout : st'.out = st.out ++ renderSegs new)
    (hblank : ∀ s, Seg.blank s ∈ new → ink s = [])
    (hold : ∀ t, Open t st.pend → Open (t ++ renderSegs new) st'.pend)
    (hnew : ∀ a c i b, new = a ++ Seg.comment c i :: b → c.type = .line → Open (renderSegs b) st'.pend) :
    SegInv (ss ++ new) st' := by
  refine ⟨by rw [hout, h.out, renderSegs_append], ?_, ?_⟩
  · intro s hs
    rcases List.mem_append.1 hs with hs | hs
    · exact h.blank s hs
    · exact hblank s hs
  · intro a c i b e hc
    rcases List.append_eq_append_iff.1 e with ⟨a', e1, e2⟩ | ⟨a', e1, e2⟩
    · exact hnew a' c i b e2 hc
    · cases a' with
      | nil =>
        simp only [List.nil_append] at e2
        exact hnew [] c i b e2.symm hc
      | cons x a' =>
        simp only [List.cons_append, List.cons.injEq] at e2
        obtain ⟨rfl, rfl⟩ := e2
        rw [renderSegs_append]
        exact hold _ (h.line a c i a' e1 hc)

theorem Open.none {t : Str} (h : Open t none) : EndsLine t := by
  rcases h with h | ⟨_, h⟩
  · exact h
  · simp at h

/-- The segments written by a flush. -/
def flushSegs (st : PSt) : List Seg :=
  match st.pend with
  | none => []
  | some i => [.blank ('\n' :: spaces i)]

theorem SegInv.flushE {ss : List Seg} {st : PSt} (h : SegInv ss st) : SegInv (ss ++ flushSegs st) st.flush := by
  unfold flushSegs
  cases hp : st.pend with
  | none => rw [PSt.flush_of_none hp, List.append_nil]; exact h
  | some i =>
    dsimp only
    refine h.add _ (by simp [PSt.flush, hp, Seg.render]) ?_ ?_ ?_
    · intro s hs; simp at hs; subst hs; simp
    · intro t ht
      left
      rcases ht with ht | ⟨⟨k, rfl⟩, _⟩
      · exact ht.append _
      · exact ⟨k, spaces i, by simp [Seg.render]⟩
    · intro a c j b e
      exfalso
      have : Seg.comment c j ∈ [Seg.blank ('\n' :: spaces i)] := by rw [e]; simp
      simp at this

theorem SegInv.flush {ss : List Seg} {st : PSt} (h : SegInv ss st) : ∃ ss', SegInv ss' st.flush ∧ itemsOf ss' = itemsOf ss := by
  refine ⟨_, h.flushE, ?_⟩
  unfold flushSegs
  split <;> simp [itemsOf, Seg.item]

theorem spaces_snoc (k : Nat) : spaces k ++ [' '] = spaces (k + 1) := by
  simp [spaces, List.replicate_succ']

/-- The segments written by a text after a flush. -/
def putSegs (st : PSt) (s : Str) : List Seg :=
  if s = [' '] ∧ endsWithSpace st.out = true then []
  else if ink s = [] then [.blank s]
  else [.code s]

theorem itemsOf_putSegs (st : PSt) (s : Str) : itemsOf (putSegs st s) = codeItem s := by
  unfold putSegs
  split
  · next hs => simp [codeItem, hs.1, itemsOf]
  · split <;> simp [codeItem, itemsOf, Seg.item, *]

theorem SegInv.putE {ss : List Seg} {st : PSt} (h : SegInv ss st) (hp : st.pend = none) (s : Str) (n : Nat) :
    SegInv (ss ++ putSegs st s) (st.putText s n) := by
  unfold PSt.putText putSegs
  split
  · rw [List.append_nil]; exact h
  · by_cases hb : ink s = []
    · rw [if_pos hb]
      refine h.add _ (by simp [Seg.render]) ?_ ?_ ?_
      · intro x hx; simp at hx; subst hx; exact hb
      · intro t ht; rw [hp] at ht; exact .inl (ht.none.append _)
      · intro a c j b e
        exfalso
        have : Seg.comment c j ∈ [Seg.blank s] := by rw [e]; simp
        simp at this
    · rw [if_neg hb]
      refine h.add _ (by simp [Seg.render]) ?_ ?_ ?_
      · intro x hx; simp at hx
      · intro t ht; rw [hp] at ht; exact .inl (ht.none.append _)
      · intro a c j b e
        exfalso
        have : Seg.comment c j ∈ [Seg.code s] := by rw [e]; simp
        simp at this

/-- The segments written by an operation. -/
def opSegs (st : PSt) : Op → List Seg
  | .flush => flushSegs st
  | .pend _ => []
  | .bare => [.blank ['\n']]
  | .space => [.blank [' ']]
  | .text s _ => flushSegs st ++ putSegs st.flush s

theorem SegInv.runOpE {ss : List Seg} {st : PSt} (h : SegInv ss st) (o : Op) :
    SegInv (ss ++ opSegs st o) (o.run st) := by
  cases o with
  | flush => exact h.flushE
  | pend i =>
    simp only [opSegs, List.append_nil]
    refine ⟨h.out, h.blank, ?_⟩
    intro a c j b e hc
    rcases h.line a c j b e hc with h | ⟨h, _⟩
    · exact .inl h
    · exact .inr ⟨h, rfl⟩
  | bare =>
    rw [opSegs]
    refine h.add _ (by simp [Op.run, PSt.bareNewline, Seg.render]) ?_ ?_ ?_
    · intro x hx; simp at hx; subst hx; rfl
    · intro t ht
      left
      rcases ht with ht | ⟨⟨k, rfl⟩, _⟩
      · exact ht.append _
      · exact ⟨k, [], by simp [Seg.render]⟩
    · intro a c j b e
      exfalso
      have : Seg.comment c j ∈ [Seg.blank ['\n']] := by rw [e]; simp
      simp at this
  | space =>
    rw [opSegs]
    refine h.add _ (by simp [Op.run, PSt.putSpace, Seg.render]) ?_ ?_ ?_
    · intro x hx; simp at hx; subst hx; rfl
    · intro t ht
      rcases ht with ht | ⟨⟨k, rfl⟩, hk⟩
      · exact .inl (ht.append _)
      · exact .inr ⟨⟨k + 1, by simp [Seg.render, spaces_snoc]⟩, hk⟩
    · intro a c j b e
      exfalso
      have : Seg.comment c j ∈ [Seg.blank [' ']] := by rw [e]; simp
      simp at this
  | text s n =>
    rw [opSegs, ← List.append_assoc]
    exact h.flushE.putE (st.flush_pend) s n

/-! ### Comment lines -/

theorem isWs_space : isWs ' ' = true := by decide

theorem trimEnd_not_endsWithSpace (s : Str) : endsWithSpace (trimEnd s) = false := by
  unfold trimEnd endsWithSpace
  rw [List.getLast?_reverse]
  cases h : List.dropWhile isWs s.reverse with
  | nil => simp
  | cons c cs =>
    have := List.head?_dropWhile_not isWs s.reverse
    rw [h] at this
    simp only [List.head?_cons] at this
    simp only [List.head?_cons]
    have hc : c ≠ ' ' := by rintro rfl; simp [isWs_space] at this
    simpa using hc

theorem ne_space_of_not_ends {s : Str} (h : endsWithSpace s = false) : s ≠ [' '] := by
  rintro rfl; simp [endsWithSpace] at h

theorem trim_ne_space (s : Str) : trim s ≠ [' '] := ne_space_of_not_ends (trimEnd_not_endsWithSpace _)

theorem javadocLine_ne (b : Bool) (l : Str) : ∀ x ∈ javadocLine b l, x ≠ [' '] := by
  have h1 : ∀ s : Str, (" * ".toList ++ s) ≠ [' '] := by
    intro s e; have := congrArg List.length e; simp at this
  intro x hx
  unfold javadocLine at hx
  have h2 : (" */".toList) ≠ [' '] := by decide
  have h3 : (" *".toList) ≠ [' '] := by decide
  simp only [] at hx
  repeat' split at hx
  all_goals
    simp only [List.mem_cons, List.not_mem_nil, or_false] at hx
    first
    | (rw [hx]; first | exact h2 | exact h3 | exact h1 _)
    | (rcases hx with rfl | rfl <;> first | exact h2 | exact h3 | exact h1 _)

theorem javadocTail_ne (ls : List Str) : ∀ x ∈ javadocTail ls, x ≠ [' '] := by
  induction ls with
  | nil => simp [javadocTail]
  | cons l ls ih =>
    cases ls with
    | nil => exact javadocLine_ne true l
    | cons m ms =>
      intro x hx
      rw [javadocTail, List.mem_append] at hx
      rcases hx with hx | hx
      · exact javadocLine_ne false l x hx
      · exact ih x hx
      · simp

theorem blockLines_ne (v : Str) : ∀ x ∈ blockLines v, x ≠ [' '] := by
  intro x hx
  unfold blockLines at hx
  simp only [] at hx
  split at hx
  · split at hx
    · simp at hx
    · rcases List.mem_cons.1 hx with rfl | hx
      · exact trim_ne_space _
      · exact javadocTail_ne _ x hx
  · obtain ⟨l, _, rfl⟩ := List.mem_map.1 hx
    exact trim_ne_space l

theorem splitNl_ne_nil (s : Str) : splitNl s ≠ [] := by
  cases s with
  | nil => simp [splitNl]
  | cons c cs =>
    unfold splitNl
    split
    · simp
    · split <;> simp

theorem blockLines_ne_nil (v : Str) : blockLines v ≠ [] := by
  unfold blockLines
  simp only []
  have := splitNl_ne_nil v
  split
  · cases h : splitNl v with
    | nil => exact absurd h this
    | cons l ls =>
      have hs : splitFirstLine (l :: ls) ≠ [] := by
        unfold splitFirstLine
        simp only []
        split
        · split <;> simp
        · simp
      cases hf : splitFirstLine (l :: ls) with
      | nil => exact absurd hf hs
      | cons a as => simp
  · simpa using this

/-! ### The segmented output -/

theorem runOps_linesOps (i : Nat) (ls : List Str) : ∀ (st : PSt), ls ≠ [] → (∀ x ∈ ls, x ≠ [' ']) →
    ∃ col, runOps (linesOps i ls) st = { out := st.flush.out ++ joinLines i ls, col, pend := none } := by
  induction ls with
  | nil => intro st h; exact absurd rfl h
  | cons l ls ih =>
    intro st _ hne
    have hl : l ≠ [' '] := hne l (by simp)
    cases ls with
    | nil =>
      refine ⟨st.flush.col + byteLen l, ?_⟩
      simp [linesOps, joinLines, Op.run, PSt.putText, hl, st.flush_pend]
    | cons m ms =>
      simp only [linesOps, runOps_cons]
      obtain ⟨col, e⟩ := ih ((Op.pend i).run ((Op.text l (byteLen l)).run st)) (by simp)
        (fun x hx => hne x (by simp [hx]))
      refine ⟨col, ?_⟩
      rw [e]
      simp [Op.run, PSt.putText, hl, PSt.flush, joinLines]

/-- The segments written by an operation or a comment. -/
def tSegs (st : PSt) : TOp → List Seg
  | .op o => opSegs st o
  | .comment c i => flushSegs st ++ [.comment c i]

theorem itemsOf_flushSegs (st : PSt) : itemsOf (flushSegs st) = [] := by
  unfold flushSegs
  split <;> simp [itemsOf, Seg.item]

theorem itemsOf_tSegs (st : PSt) (t : TOp) : itemsOf (tSegs st t) = t.items := by
  cases t with
  | op o =>
    cases o with
    | flush => exact itemsOf_flushSegs st
    | pend i => rfl
    | bare => rfl
    | space => rfl
    | text s n => rw [tSegs, opSegs, itemsOf_append, itemsOf_flushSegs, itemsOf_putSegs]; rfl
  | comment c i => rw [tSegs, itemsOf_append, itemsOf_flushSegs]; rfl

theorem SegInv.runTE {ss : List Seg} {st : PSt} (h : SegInv ss st) (t : TOp) (ht : t.ok) :
    SegInv (ss ++ tSegs st t) (runOps t.ops st) := by
  cases t with
  | op o => simpa [TOp.ops, tSegs] using h.runOpE o
  | comment c i =>
    have h1 := h.flushE
    have hclosed : ∀ t, Open t st.flush.pend → EndsLine t := by
      intro t ht; rw [st.flush_pend] at ht; exact ht.none
    rw [tSegs, ← List.append_assoc]
    simp only [TOp.ops, commentOps]
    have hone : ∀ a c' j b, [Seg.comment c i] = a ++ Seg.comment c' j :: b → c' = c ∧ b = [] := by
      intro a c' j b e
      cases a with
      | nil => simp at e; exact ⟨e.1.1.symm, e.2⟩
      | cons x a => have := congrArg List.length e; simp at this
    cases hc : c.type with
    | line =>
      have hv : c.value ≠ [' '] := ne_space_of_not_ends ht
      refine h1.add _ ?_ (by simp) ?_ ?_
      · simp [Op.run, PSt.putText, hv, Seg.render, Comment.rendered, hc]
      · intro t ht; exact .inl ((hclosed t ht).append _)
      · intro a c' j b e _
        obtain ⟨_, rfl⟩ := hone a c' j b e
        right; exact ⟨⟨0, rfl⟩, by simp [Op.run]⟩
    | block =>
      obtain ⟨col, e⟩ := runOps_linesOps i (blockLines c.value) st (blockLines_ne_nil _) (blockLines_ne _)
      simp only [e]
      refine h1.add _ ?_ (by simp) ?_ ?_
      · simp [Seg.render, Comment.rendered, hc]
      · intro t ht; exact .inl ((hclosed t ht).append _)
      · intro a c' j b e' hl
        obtain ⟨rfl, _⟩ := hone a c' j b e'
        rw [hc] at hl; cases hl

theorem SegInv.runT {ss : List Seg} {st : PSt} (h : SegInv ss st) (t : TOp) (ht : t.ok) :
    ∃ ss', SegInv ss' (runOps t.ops st) ∧ itemsOf ss' = itemsOf ss ++ t.items :=
  ⟨_, h.runTE t ht, by rw [itemsOf_append, itemsOf_tSegs]⟩

theorem SegInv.runTs {ss : List Seg} {st : PSt} (h : SegInv ss st) (ts : List TOp) (ht : ∀ t ∈ ts, t.ok) :
    ∃ ss', SegInv ss' (runOps (ts.flatMap TOp.ops) st) ∧ itemsOf ss' = itemsOf ss ++ ts.flatMap TOp.items := by
  induction ts generalizing ss st with
  | nil => exact ⟨ss, by simpa using h, by simp⟩
  | cons t ts ih =>
    obtain ⟨s1, h1, e1⟩ := h.runT t (ht t (by simp))
    obtain ⟨s2, h2, e2⟩ := ih h1 (fun x hx => ht x (by simp [hx]))
    refine ⟨s2, ?_, by rw [e2, e1]; simp⟩
    rw [List.flatMap_cons, runOps_append]; exact h2

/-- The output of the printer for a document that stands for the items `is`: exactly these items in this order, blanks in
between, and after every line comment the line ends. -/
theorem layout_segments (w : Nat) {d : Doc} {is : List Item} (h : Doc.Items d is) :
    ∃ ss : List Seg, layout w d = renderSegs ss ∧ itemsOf ss = is ∧ SegsOk ss := by
  obtain ⟨ts, e, hi, hok⟩ := pr_tops w h 0 false [] PSt.init
  have h0 : SegInv [] PSt.init := ⟨rfl, by simp, by intro a c i b e; simp at e⟩
  obtain ⟨s1, h1, e1⟩ := h0.runTs ts hok
  obtain ⟨s2, h2, e2⟩ := h1.flush
  refine ⟨s2, ?_, ?_, h2.blank, ?_⟩
  · rw [layout, e]; exact h2.out
  · rw [e2, e1, hi]; simp [itemsOf]
  · intro a c i b hs hc
    have := h2.line a c i b hs hc
    rw [PSt.flush_pend] at this
    exact this.none

end Afmt
