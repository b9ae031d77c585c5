import Verif.Shape

/-!
# Constructors on trees that differ in ids and positions only: tools
-/

namespace Afmt
open Gram

/-- The source text of the location stays the same. -/
def Kept (τ : Nat → Pos) (l : Loc) : Prop := (τ l.id).text = l.value

/-- The source text of the location stays the same up to letter case. -/
def KeptAs (k : Letters) (τ : Nat → Pos) (l : Loc) : Prop := k.of (τ l.id).text = k.of l.value

/-- What the calls of a constructor guarantee. -/
def K (τ : Nat → Pos) : Cls → Loc → Prop
  | .valueNode, l => Kept τ l
  | .valueNodeLowerCase, l => KeptAs .small τ l
  | .valueNodeUpperCase, l => KeptAs .capital τ l
  | .soqlLiteral, l => literalParents.contains l.pkind = true
  | .comparableListValue, l => literalParents.contains l.pkind = true
  | .comparableList, l => literalParents.contains l.kind = true
  | .comparison, l => literalParents.contains l.kind = true
  | .fieldOption, l => Kept τ l
  | .annotationArgumentList, l => l.node.field = some "arguments"
  | .constructorDeclaration, l => l.kind = "constructor_declaration"
  | .constructorBody, l => l.isBody = true
  | .soqlWithTypeVariant, l => l.kind = "with_type"
  | _, _ => True

/-- The setting: a tree, its image, and constructors to call. -/
structure E (root : Node) (τ : Nat → Pos) (cfg cfg' : Cfg) (rec rec' : Rec) : Prop where
  look : ∀ l, In root l → l.skel cfg.checks = (l.ren τ).skel cfg.checks
  call : ∀ c l, In root l → K τ c l → rec' c (l.ren τ) = (rec c l).map (Prog.ren τ)
  trail : ∀ l p, In root p → p.isBody = true → l ∈ p.childrenVec →
    Prog.New.hasTrailingNewline cfg' (l.ren τ) = Prog.New.hasTrailingNewline cfg l

variable {root : Node} {τ : Nat → Pos} {cfg cfg' : Cfg} {rec rec' : Rec} {n : Loc}

theorem bindE {α β γ δ : Type} {x : R α} {x' : R β} {f : α → β} {g : α → R γ} {g' : β → R δ} {h : γ → δ} (hx : x' = x.map f)
    (hg : ∀ a, x = .ok a → g' (f a) = (g a).map h) : (x' >>= g') = (x >>= g).map h := by
  subst hx
  cases x with
  | error e => rfl
  | ok a => exact hg a rfl

theorem bindS {α γ δ : Type} {x x' : R α} {g : α → R γ} {g' : α → R δ} {h : γ → δ} (hx : x' = x)
    (hg : ∀ a, x = .ok a → g' a = (g a).map h) : (x' >>= g') = (x >>= g).map h := by
  subst hx
  cases x' with
  | error e => rfl
  | ok a => exact hg a rfl

/-! ### Locations the accessors return -/

theorem in_named {l c : Loc} (h : In root l) (hc : c ∈ l.namedChildren) : In root c :=
  .child h (List.mem_filter.mp hc).1
theorem in_vec {l c : Loc} (h : In root l) (hc : c ∈ l.childrenVec) : In root c := in_named h (List.mem_filter.mp hc).1
theorem in_tryCByK {l c : Loc} {k : String} (h : In root l) (hc : l.tryCByK k = some c) : In root c :=
  in_named h (List.mem_of_find?_eq_some hc)
theorem in_tryCsByK {l c : Loc} {k : String} (h : In root l) (hc : c ∈ l.tryCsByK k) : In root c :=
  in_named h (List.mem_filter.mp hc).1
theorem in_tryCByN {l c : Loc} {k : String} (h : In root l) (hc : l.tryCByN k = some c) : In root c :=
  .child h (List.mem_of_find?_eq_some hc)
theorem in_tryFirstC {l c : Loc} (h : In root l) (hc : l.tryFirstC = some c) : In root c :=
  in_named h (List.mem_of_find?_eq_some hc)

theorem try_of_cByK {l c : Loc} {k : String} (hc : l.cByK k = .ok c) : l.tryCByK k = some c := by
  unfold Loc.cByK at hc; split at hc <;> simp_all
theorem try_of_cByN {l c : Loc} {k : String} (hc : l.cByN k = .ok c) : l.tryCByN k = some c := by
  unfold Loc.cByN at hc; split at hc <;> simp_all
theorem try_of_firstC {l c : Loc} (hc : l.firstC = .ok c) : l.tryFirstC = some c := by
  unfold Loc.firstC at hc; split at hc <;> simp_all
theorem try_of_csByK {l : Loc} {cs : List Loc} {k : String} (hc : l.csByK k = .ok cs) : cs = l.tryCsByK k := by
  unfold Loc.csByK at hc; split at hc <;> simp_all
theorem in_cByK {l c : Loc} {k : String} (h : In root l) (hc : l.cByK k = .ok c) : In root c := in_tryCByK h (try_of_cByK hc)
theorem in_cByN {l c : Loc} {k : String} (h : In root l) (hc : l.cByN k = .ok c) : In root c := in_tryCByN h (try_of_cByN hc)
theorem in_firstC {l c : Loc} (h : In root l) (hc : l.firstC = .ok c) : In root c := in_tryFirstC h (try_of_firstC hc)
theorem in_csByK {l c : Loc} {cs : List Loc} {k : String} (h : In root l) (hcs : l.csByK k = .ok cs) (hc : c ∈ cs) : In root c :=
  in_tryCsByK h (try_of_csByK hcs ▸ hc)
theorem in_csByN {l c : Loc} {cs : List Loc} {k : String} (h : In root l) (hcs : l.csByN k = .ok cs) (hc : c ∈ cs) : In root c := by
  unfold Loc.csByN at hcs
  split at hcs
  · cases hcs
  · rw [Except.ok.injEq] at hcs
    subst hcs
    exact .child h (List.mem_filter.mp hc).1
theorem in_nextNamed {l c : Loc} (h : In root l) (hc : l.nextNamed = .ok c) : In root c := by
  unfold Loc.nextNamed at hc
  split at hc
  · rename_i x hx
    rw [Except.ok.injEq] at hc
    exact hc ▸ in_right h (List.mem_of_find?_eq_some hx)
  · cases hc

theorem kind_tryCByK {l c : Loc} {k : String} (hc : l.tryCByK k = some c) : c.kind = k := by
  simpa using List.find?_some hc
theorem kind_tryCsByK {l c : Loc} {k : String} (hc : c ∈ l.tryCsByK k) : c.kind = k := by
  simpa using (List.mem_filter.mp hc).2
theorem field_tryCByN {l c : Loc} {k : String} (hc : l.tryCByN k = some c) : c.node.field = some k := by
  simpa using List.find?_some hc
theorem child_tryCByN {l c : Loc} {k : String} (hc : l.tryCByN k = some c) : c ∈ l.children := List.mem_of_find?_eq_some hc
theorem child_tryCByK {l c : Loc} {k : String} (hc : l.tryCByK k = some c) : c ∈ l.children :=
  (List.mem_filter.mp (List.mem_of_find?_eq_some hc)).1
theorem child_vec {l c : Loc} (hc : c ∈ l.childrenVec) : c ∈ l.children := (List.mem_filter.mp (List.mem_filter.mp hc).1).1
theorem pkind_child {l c : Loc} (hc : c ∈ l.children) : c.pkind = l.kind := by
  have := children_parent hc
  obtain ⟨m, path⟩ := c
  cases path with
  | nil => cases this
  | cons f fs =>
    rw [Loc.parent] at this
    simp only [Option.some.injEq] at this
    subst this
    rfl
theorem pfield_child {l c : Loc} (hc : c ∈ l.children) : c.pfield = l.node.field := by
  have := children_parent hc
  obtain ⟨m, path⟩ := c
  cases path with
  | nil => cases this
  | cons f fs =>
    rw [Loc.parent] at this
    simp only [Option.some.injEq] at this
    subst this
    rfl

/-! ### Texts -/

theorem pkind_ren (τ : Nat → Pos) (l : Loc) : (l.ren τ).pkind = l.pkind := by
  obtain ⟨m, path⟩ := l
  cases path with
  | nil => rfl
  | cons f fs => exact node_kind τ f.parent
/-- The next named sibling has the same parent. -/
theorem pkind_next {l c : Loc} (hc : l.nextNamed = .ok c) : c.pkind = l.pkind := by
  unfold Loc.nextNamed at hc
  split at hc
  · rename_i x hx
    rw [Except.ok.injEq] at hc
    have hm := hc ▸ List.mem_of_find?_eq_some hx
    obtain ⟨m, path⟩ := l
    cases path with
    | nil => cases hm
    | cons f fs =>
      have go : ∀ (p : Loc) (rest lefts : List Node) (c : Loc), c ∈ Loc.childrenGo p lefts rest → c.pkind = p.kind := by
        intro p rest
        induction rest with
        | nil => intro lefts c h; rw [Loc.childrenGo] at h; cases h
        | cons x rest ih =>
          intro lefts c h
          rw [Loc.childrenGo, List.mem_cons] at h
          rcases h with rfl | h
          · rfl
          · exact ih _ c h
      exact go _ _ _ _ hm
  · cases hc

theorem pfield_ren (τ : Nat → Pos) (l : Loc) : (l.ren τ).pfield = l.pfield := by
  obtain ⟨m, path⟩ := l
  cases path with
  | nil => rfl
  | cons f fs => exact node_field τ f.parent

theorem shown_ren (τ : Nat → Pos) (pk : String) (pf : Option String) (m : Node) : (m.ren τ).shown pk pf = m.shown pk pf := by
  rw [Node.shown, Node.shown, node_extra, node_children, node_kind, node_field, List.any_map]
  simp only [Function.comp_def, node_named]

/-- The letters of the node at a location. -/
abbrev Loc.letters (l : Loc) : Letters := lettersOf l.pkind l.pfield l.kind l.node.extra l.node.field

/-- The source text of the node is part of the skeleton, and it is no comment. -/
def Node.isWord (pk : String) (pf : Option String) (n : Node) : Bool := n.shown pk pf && !isCommentNode n.kind n.extra n.field

/-- The source text of a shown location stays the same up to letter case. -/
theorem E.keptAs (e : E root τ cfg cfg' rec rec') {l : Loc} (hl : In root l) (hs : l.node.isWord l.pkind l.pfield = true) :
    KeptAs l.letters τ l := by
  rw [Node.isWord, Bool.and_eq_true, Bool.not_eq_true'] at hs
  obtain ⟨hs, hc⟩ := hs
  have := congrArg Skel.word (e.look l hl)
  rw [skel_word, skel_word, if_pos hs, pkind_ren, pfield_ren] at this
  rw [show (l.ren τ).node = l.node.ren τ from rfl, shown_ren, if_pos hs, Node.spelling, Node.spelling, node_kind, node_extra,
    node_field, node_text, hc, if_neg Bool.false_ne_true, if_neg Bool.false_ne_true, Option.some.injEq] at this
  exact this.symm

theorem E.kept (e : E root τ cfg cfg' rec rec') {l : Loc} (hl : In root l) (hs : l.node.isWord l.pkind l.pfield = true)
    (hc : l.letters = .asIs) : Kept τ l := by
  have := e.keptAs hl hs
  rw [hc] at this
  exact this

theorem toLower_lower (s : Str) : Letters.small.of s = s.map Char.toLower := rfl
theorem KeptAs.of_kept {k : Letters} {l : Loc} (h : Kept τ l) : KeptAs k τ l := by
  unfold KeptAs; rw [h]

/-- Kinds of words whose letters are always printed as in the source. -/
def plainWord (k : String) : Bool :=
  wordKinds.contains k && !["boolean", "null_literal", "decimal_floating_point_literal", "fields_type",
    "with_data_cat_filter_type", "date_literal"].contains k

theorem letters_kind {l : Loc} (h : plainWord l.kind = true) : l.letters = .asIs := by
  simp only [plainWord, Bool.and_eq_true, Bool.not_eq_true', List.contains_eq_mem, List.mem_cons, List.not_mem_nil, or_false,
    decide_eq_false_iff_not, not_or] at h
  obtain ⟨_, h1, h2, h3, h4, h5, h6⟩ := h
  simp [Loc.letters, lettersOf, h1, h2, h3, h4, h5, h6]
theorem letters_field {l : Loc} {f : String} (hf : l.node.field = some f) (h : wordFields.contains f = true) : l.letters = .asIs := by
  have : wordField l.pkind l.pfield l.node.field = true := by rw [hf, wordField, h]; rfl
  rw [Loc.letters, lettersOf, this, Bool.or_true, Bool.true_or, if_pos rfl]
theorem letters_literal {l : Loc} (h : literalParents.contains l.pkind = true) : l.letters = .asIs := by
  rw [Loc.letters, lettersOf, h, Bool.or_true, if_pos rfl]
/-- Words printed in small letters. -/
theorem letters_small {l : Loc} (h : ["boolean", "null_literal", "decimal_floating_point_literal"].contains l.kind = true) :
    l.letters = .asIs ∨ l.letters = .small := by
  rw [Loc.letters, lettersOf, h]
  split
  · exact .inl rfl
  · exact .inr rfl
theorem letters_capital {l : Loc} (h : ["fields_type", "with_data_cat_filter_type"].contains l.kind = true ∨
      (l.kind = "date_literal" ∧ l.pkind = "date_literal_with_param")) :
    l.letters = .asIs ∨ l.letters = .capital := by
  rw [Loc.letters, lettersOf]
  split
  · exact .inl rfl
  · right
    rcases h with h | ⟨h, h'⟩
    · have : ["boolean", "null_literal", "decimal_floating_point_literal"].contains l.kind = false := by
        simp only [List.contains_eq_mem, List.mem_cons, List.not_mem_nil, or_false, decide_eq_true_eq] at h
        rcases h with h | h <;> rw [h] <;> rfl
      rw [this, h]; rfl
    · rw [h, h']; rfl

theorem word_kind {k : String} (h : wordKinds.contains k = true) (e : Bool) (f : Option String) : isCommentNode k e f = false := by
  have key : wordKinds.all (fun k => !(k == "line_comment" || k == "block_comment")) = true := by decide
  have := List.all_eq_true.1 key k (by simpa using h)
  unfold isCommentNode
  rw [Bool.not_eq_true'] at this
  rw [this, Bool.and_false]
theorem shown_kind {l : Loc} (h : wordKinds.contains l.kind = true) : l.node.isWord l.pkind l.pfield = true := by
  have h' : wordKinds.contains l.node.kind = true := h
  rw [Node.isWord, word_kind h', Node.shown, h']
  simp
theorem shown_field {l : Loc} {f : String} (hf : l.node.field = some f) (h : wordFields.contains f = true) :
    l.node.isWord l.pkind l.pfield = true := by
  rw [Node.isWord, Node.shown, hf]
  simp only [wordField, h, Bool.true_or, Bool.or_true, isCommentNode, Option.isNone, Bool.and_false, Bool.false_and, Bool.not_false, Bool.and_self]
theorem shown_leaf {l : Loc} (hk : l.kind = "with_type") (h : l.namedChildren.isEmpty = true) : l.node.isWord l.pkind l.pfield = true := by
  have : l.node.children.any (·.named) = false := by
    rw [List.any_eq_false]
    intro x hx
    rw [← children_map l] at hx
    obtain ⟨c, hc, rfl⟩ := List.mem_map.mp hx
    intro hn
    rw [List.isEmpty_iff] at h
    have : c ∈ l.namedChildren := List.mem_filter.mpr ⟨hc, hn⟩
    rw [h] at this
    exact absurd this (List.not_mem_nil)
  rw [Node.isWord, Node.shown, this, show l.node.kind = "with_type" from hk]
  simp [isCommentNode]

theorem plainWord_word {k : String} (h : plainWord k = true) : wordKinds.contains k = true := by
  rw [plainWord, Bool.and_eq_true] at h
  exact h.1

theorem E.kept_kind (e : E root τ cfg cfg' rec rec') {l : Loc} (hl : In root l) {k : String} (hk : l.kind = k)
    (h : plainWord k = true) : Kept τ l := e.kept hl (shown_kind (plainWord_word (hk ▸ h))) (letters_kind (hk ▸ h))
theorem E.kept_field (e : E root τ cfg cfg' rec rec') {l : Loc} (hl : In root l) {f : String} (hf : l.node.field = some f)
    (h : wordFields.contains f = true) : Kept τ l := e.kept hl (shown_field hf h) (letters_field hf h)
theorem E.kept_cByN (e : E root τ cfg cfg' rec rec') {l c : Loc} {f : String} (hc : l.cByN f = .ok c) (hl : In root l)
    (h : wordFields.contains f = true) : Kept τ c := e.kept_field (in_cByN hl hc) (field_tryCByN (try_of_cByN hc)) h
theorem E.kept_cByK (e : E root τ cfg cfg' rec rec') {l c : Loc} {k : String} (hc : l.cByK k = .ok c) (hl : In root l)
    (h : plainWord k = true) : Kept τ c := e.kept_kind (in_cByK hl hc) (kind_tryCByK (try_of_cByK hc)) h
theorem E.kept_tryCByK (e : E root τ cfg cfg' rec rec') {l c : Loc} {k : String} (hc : l.tryCByK k = some c) (hl : In root l)
    (h : plainWord k = true) : Kept τ c := e.kept_kind (in_tryCByK hl hc) (kind_tryCByK hc) h
theorem E.kept_tryCByN (e : E root τ cfg cfg' rec rec') {l c : Loc} {k : String} (hc : l.tryCByN k = some c) (hl : In root l)
    (h : wordFields.contains k = true) : Kept τ c := e.kept_field (in_tryCByN hl hc) (field_tryCByN hc) h
theorem E.kept_mem (e : E root τ cfg cfg' rec rec') {l c : Loc} {k : String} (hc : c ∈ l.tryCsByK k) (hl : In root l)
    (h : plainWord k = true) : Kept τ c := e.kept_kind (in_tryCsByK hl hc) (kind_tryCsByK hc) h
theorem E.kept_cs (e : E root τ cfg cfg' rec rec') {l c : Loc} {cs : List Loc} {k : String} (hcs : l.csByK k = .ok cs)
    (hc : c ∈ cs) (hl : In root l) (h : plainWord k = true) : Kept τ c :=
  e.kept_mem (try_of_csByK hcs ▸ hc) hl h

/-- Words printed in small letters. -/
theorem E.kept_small (e : E root τ cfg cfg' rec rec') {l : Loc} (hl : In root l)
    (h : ["boolean", "null_literal", "decimal_floating_point_literal"].contains l.kind = true) : KeptAs .small τ l := by
  have hs : wordKinds.contains l.kind = true := by
    simp only [List.contains_eq_mem, List.mem_cons, List.not_mem_nil, or_false, decide_eq_true_eq] at h
    rcases h with h | h | h <;> rw [h] <;> rfl
  rcases letters_small h with hc | hc
  · exact .of_kept (e.kept hl (shown_kind hs) hc)
  · exact hc ▸ e.keptAs hl (shown_kind hs)
/-- Words printed in capital letters. -/
theorem E.kept_capital (e : E root τ cfg cfg' rec rec') {l : Loc} (hl : In root l)
    (h : ["fields_type", "with_data_cat_filter_type"].contains l.kind = true ∨
      (l.kind = "date_literal" ∧ l.pkind = "date_literal_with_param")) : KeptAs .capital τ l := by
  have hs : wordKinds.contains l.kind = true := by
    rcases h with h | h
    · simp only [List.contains_eq_mem, List.mem_cons, List.not_mem_nil, or_false, decide_eq_true_eq] at h
      rcases h with h | h <;> rw [h] <;> rfl
    · rw [h.1]; rfl
  rcases letters_capital h with hc | hc
  · exact .of_kept (e.kept hl (shown_kind hs) hc)
  · exact hc ▸ e.keptAs hl (shown_kind hs)
theorem E.capital_cByK (e : E root τ cfg cfg' rec rec') {l c : Loc} {k : String} (hc : l.cByK k = .ok c) (hl : In root l)
    (h : ["fields_type", "with_data_cat_filter_type"].contains k = true) : KeptAs .capital τ c :=
  e.kept_capital (in_cByK hl hc) (.inl ((kind_tryCByK (try_of_cByK hc)).symm ▸ h))
/-- SOQL literals. -/
theorem E.kept_literal (e : E root τ cfg cfg' rec rec') {l : Loc} (hl : In root l) (hk : wordKinds.contains l.kind = true)
    (h : literalParents.contains l.pkind = true) : Kept τ l := e.kept hl (shown_kind hk) (letters_literal h)

theorem kept_value {l : Loc} (h : Kept τ l) : (l.ren τ).value = l.value := (loc_value τ l).trans h

theorem E.cvalueByN (e : E root τ cfg cfg' rec rec') {l : Loc} (hl : In root l) {f : String} (h : wordFields.contains f = true) :
    (l.ren τ).cvalueByN f = l.cvalueByN f := by
  rw [Loc.cvalueByN, loc_tryCByN, Loc.cvalueByN]
  cases hc : l.tryCByN f with
  | none => rfl
  | some c => simp only [Option.map_some]; rw [kept_value (e.kept_tryCByN hc hl h)]
theorem E.cvalueByK (e : E root τ cfg cfg' rec rec') {l : Loc} (hl : In root l) {f : String} (h : plainWord f = true) :
    (l.ren τ).cvalueByK f = l.cvalueByK f := by
  rw [Loc.cvalueByK, loc_tryCByK, Loc.cvalueByK]
  cases hc : l.tryCByK f with
  | none => rfl
  | some c => simp only [Option.map_some]; rw [kept_value (e.kept_tryCByK hc hl h)]

/-! ### Calls -/

theorem optE {f : Loc → R Prog} {f' : Loc → R Prog} {o : Option Loc} (h : ∀ l, o = some l → f' (l.ren τ) = (f l).map (Prog.ren τ)) :
    optR (o.map (Loc.ren τ)) f' = (optR o f).map (Option.map (Prog.ren τ)) := by
  cases o with
  | none => rfl
  | some l =>
    simp only [Option.map_some, optR]
    rw [h l rfl]
    cases f l <;> rfl

theorem mapE {β : Type} {g : β → β} {f f' : Loc → R β} : ∀ {ls : List Loc}, (∀ l ∈ ls, f' (l.ren τ) = (f l).map g) →
    mapR f' (ls.map (Loc.ren τ)) = (mapR f ls).map (List.map g)
  | [], _ => rfl
  | l :: ls, h => by
    rw [List.map_cons, mapR, mapR, h l (.head _)]
    cases f l with
    | error e => rfl
    | ok b =>
      simp only [Except.map]
      rw [mapE (fun x hx => h x (.tail _ hx))]
      cases mapR f ls <;> rfl

/-- The calls of a dispatch table need no guarantees beyond the kind. -/
def plainTable (tbl : List (String × Cls)) : Bool :=
  tbl.all (fun e =>
    if e.2 = .valueNode then plainWord e.1
    else if e.2 = .valueNodeLowerCase then ["boolean", "null_literal", "decimal_floating_point_literal"].contains e.1
    else if e.2 = .comparableList then literalParents.contains e.1
    else if e.2 = .constructorDeclaration then e.1 == "constructor_declaration"
    else e.2 ≠ .fieldOption && e.2 ≠ .annotationArgumentList && e.2 ≠ .constructorBody &&
      e.2 ≠ .soqlWithTypeVariant && e.2 ≠ .valueNodeUpperCase && e.2 ≠ .soqlLiteral && e.2 ≠ .comparableListValue &&
      e.2 ≠ .comparison)

theorem E.dispatch (e : E root τ cfg cfg' rec rec') {l : Loc} (hl : In root l) {tbl : List (String × Cls)} (h : plainTable tbl = true) :
    Prog.New.dispatch rec' tbl (l.ren τ) = (Prog.New.dispatch rec tbl l).map (Prog.ren τ) := by
  rw [Prog.New.dispatch, loc_kind, Prog.New.dispatch]
  cases hf : tbl.find? (fun e => e.1 == l.kind) with
  | none => rfl
  | some x =>
    refine e.call x.2 l hl ?_
    have hk : x.1 = l.kind := by simpa using List.find?_some hf
    have hx := List.all_eq_true.mp h x (List.mem_of_find?_eq_some hf)
    obtain ⟨k, c⟩ := x
    subst hk
    cases c <;> first
      | trivial
      | exact e.kept_kind hl rfl (by simpa using hx)
      | exact e.kept_small hl (by simpa using hx)
      | exact (by simpa using hx : literalParents.contains l.kind = true)
      | exact (by simpa using hx : l.kind = "constructor_declaration")
      | (exfalso; simp at hx)

theorem bodyMemberE (e : E root τ cfg cfg' rec rec') {p l : Loc} (hp : In root p) (hb : p.isBody = true) (hl : l ∈ p.childrenVec)
    {c : Cls} (hk : K τ c l) :
    Prog.New.bodyMember cfg' rec' c (l.ren τ) = (Prog.New.bodyMember cfg rec c l).map (fun m => (m.1, m.2.ren τ)) := by
  rw [Prog.New.bodyMember, Prog.New.bodyMember, e.call c l (in_vec hp hl) hk, e.trail l p hp hb hl]
  cases rec c l with
  | error e => rfl
  | ok q =>
    simp only [Except.map]
    cases Prog.New.hasTrailingNewline cfg l <;> rfl

/-! ### Documents -/

theorem ren_t (s : String) : (Prog.t s).ren τ = Prog.t s := by rw [Prog.t, Prog.ren]
theorem ren_tL (s : String) : (Prog.tL s).ren τ = Prog.tL s := by rw [Prog.tL, Prog.ren]
theorem ren_tR (s : String) : (Prog.tR s).ren τ = Prog.tR s := by rw [Prog.tR, Prog.ren]
theorem ren_tLR (s : String) : (Prog.tLR s).ren τ = Prog.tLR s := by rw [Prog.tLR, Prog.ren]
theorem ren_txtR (s : Str) : (Prog.txtR s).ren τ = Prog.txtR s := by rw [Prog.txtR, Prog.ren]
theorem ren_txtLR (s : Str) : (Prog.txtLR s).ren τ = Prog.txtLR s := by rw [Prog.txtLR, Prog.ren]
theorem ren_nil : Prog.nil.ren τ = Prog.nil := by rw [Prog.nil, Prog.ren]
theorem ren_groupConcat (ps : List Prog) : (Prog.groupConcat ps).ren τ = Prog.groupConcat (Prog.rens τ ps) := by
  rw [Prog.groupConcat, Prog.ren, Prog.ren, Prog.groupConcat]
theorem ren_groupIndent (p : Prog) : (Prog.groupIndent p).ren τ = Prog.groupIndent (p.ren τ) := by
  rw [Prog.groupIndent, Prog.ren, Prog.ren, Prog.groupIndent]
theorem ren_groupIndentConcat (ps : List Prog) : (Prog.groupIndentConcat ps).ren τ = Prog.groupIndentConcat (Prog.rens τ ps) := by
  rw [Prog.groupIndentConcat, Prog.ren, Prog.ren, Prog.ren, Prog.groupIndentConcat]
theorem rens_opt (o : Option Prog) : Prog.rens τ (Prog.opt o) = Prog.opt (o.map (Prog.ren τ)) := by
  cases o <;> simp only [Prog.opt, Prog.rens, Option.map]
theorem rens_optT (o : Option Str) : Prog.rens τ (Prog.optT o) = Prog.optT o := by
  cases o <;> simp only [Prog.optT, Prog.rens, Prog.ren]

/-- The separator with other ids. -/
def Ins.ren (τ : Nat → Pos) (x : Prog.Ins) : Prog.Ins := ⟨x.pre.map (Prog.ren τ), x.str, x.suf.map (Prog.ren τ)⟩

theorem rens_progs (x : Prog.Ins) : Prog.rens τ x.progs = (Ins.ren τ x).progs := by
  rw [Prog.Ins.progs, ren_append, ren_append, rens_opt, rens_opt, rens_optT]; rfl

theorem ren_intersperseParts (sep : Prog.Ins) : ∀ ps, Prog.rens τ (Prog.intersperseParts sep ps) = Prog.intersperseParts (Ins.ren τ sep) (Prog.rens τ ps)
  | [] => by simp only [Prog.intersperseParts, Prog.rens]
  | [p] => by simp only [Prog.intersperseParts, Prog.rens]
  | p :: q :: ps => by
    have ih := ren_intersperseParts sep (q :: ps)
    rw [Prog.intersperseParts, Prog.rens, ren_append, rens_progs, ih]
    · simp only [Prog.rens, Prog.intersperseParts]
    · simp

theorem ren_intersperse (ps : List Prog) (sep : Prog.Ins) : (Prog.intersperse ps sep).ren τ = Prog.intersperse (Prog.rens τ ps) (Ins.ren τ sep) := by
  cases ps with
  | nil => simp only [Prog.intersperse, ren_nil, Prog.rens]
  | cons p ps => simp only [Prog.intersperse, Prog.ren, ren_intersperseParts, Prog.rens]

theorem ren_s (s : String) : Ins.ren τ (.s s) = .s s := rfl
theorem ren_after (p : Prog) : Ins.ren τ (.after p) = .after (p.ren τ) := rfl
theorem ren_sAfter (s : String) (p : Prog) : Ins.ren τ (.sAfter s p) = .sAfter s (p.ren τ) := rfl
theorem ren_before (s : String) (p : Prog) : Ins.ren τ (.before p s) = .before (p.ren τ) s := rfl

theorem ren_surround (ps : List Prog) (sep opn cls : Prog.Ins) :
    (Prog.surround ps sep opn cls).ren τ = Prog.surround (Prog.rens τ ps) (Ins.ren τ sep) (Ins.ren τ opn) (Ins.ren τ cls) := by
  cases ps with
  | nil =>
    simp only [Prog.surround, Prog.rens, Ins.ren]
    cases opn.str <;> cases cls.str <;> simp only [Prog.ren, Prog.rens]
  | cons p ps =>
    have h1 : ∀ o : Option Prog, Prog.rens τ ((Prog.opt o).map .indent) = (Prog.opt (o.map (Prog.ren τ))).map .indent := by
      intro o; cases o <;> simp only [Prog.opt, List.map, Prog.rens, Prog.ren, Option.map]
    simp only [Prog.surround, Prog.ren, ren_append, rens_opt, rens_optT, h1, Prog.rens, ren_intersperse]
    rfl

theorem ren_groupSurround (ps : List Prog) (sep opn cls : Prog.Ins) :
    (Prog.groupSurround ps sep opn cls).ren τ = Prog.groupSurround (Prog.rens τ ps) (Ins.ren τ sep) (Ins.ren τ opn) (Ins.ren τ cls) := by
  rw [Prog.groupSurround, Prog.ren, ren_surround, Prog.groupSurround]

theorem ren_parenList (ps : List Prog) : (Prog.New.parenList ps).ren τ = Prog.New.parenList (Prog.rens τ ps) := by
  rw [Prog.New.parenList, ren_groupSurround, Prog.New.parenList, ren_after, ren_sAfter, ren_before, Prog.ren, Prog.ren]

/-- The members with other ids. -/
def renBody (τ : Nat → Pos) (ms : List (Bool × Prog)) : List (Bool × Prog) := ms.map (fun m => (m.1, m.2.ren τ))

theorem ren_bodyParts : ∀ ms, Prog.rens τ (Prog.bodyParts ms) = Prog.bodyParts (renBody τ ms)
  | [] => by simp only [Prog.bodyParts, renBody, List.map, Prog.rens]
  | [m] => by simp only [Prog.bodyParts, renBody, List.map, Prog.rens]
  | (tr, m) :: m' :: ms => by
    have ih := ren_bodyParts (m' :: ms)
    rw [Prog.bodyParts, Prog.rens, Prog.rens, ih]
    · simp only [renBody, List.map, Prog.bodyParts]
      cases tr <;> simp [Prog.ren]
    · simp

theorem ren_intersperseBody (ms : List (Bool × Prog)) : (Prog.intersperseBody ms).ren τ = Prog.intersperseBody (renBody τ ms) := by
  cases ms with
  | nil => simp only [Prog.intersperseBody, renBody, List.map, ren_nil]
  | cons m ms =>
    simp only [Prog.intersperseBody, Prog.ren, ren_bodyParts]
    rfl

theorem ren_surroundBody (ms : List (Bool × Prog)) : (Prog.surroundBody ms).ren τ = Prog.surroundBody (renBody τ ms) := by
  cases ms with
  | nil => simp only [Prog.surroundBody, renBody, List.map, Prog.ren, Prog.rens, ren_t]
  | cons m ms =>
    simp only [Prog.surroundBody, Prog.ren, Prog.rens, ren_t, ren_intersperseBody]
    rfl

theorem ren_punctOpt (p : Option Punc) : Prog.rens τ (Prog.punctOpt p) = Prog.punctOpt (p.map (Punc.ren τ)) := by
  cases p <;> simp only [Prog.punctOpt, Prog.rens, Prog.ren, Option.map]

theorem ren_withComments (id : Nat) (ms : List Prog) : (Prog.withComments id ms).ren τ = Prog.withComments (τ id).id (Prog.rens τ ms) := by
  simp only [Prog.withComments, Prog.ren, Prog.rens, ren_append]
theorem ren_wcp (id : Nat) (p : Option Punc) (ms : List Prog) :
    (Prog.withCommentsAndPunc id p ms).ren τ = Prog.withCommentsAndPunc (τ id).id (p.map (Punc.ren τ)) (Prog.rens τ ms) := by
  simp only [Prog.withCommentsAndPunc, Prog.ren, Prog.rens, ren_append, ren_punctOpt]
theorem ren_wcpa (id : Nat) (p : Option Punc) (ms : List Prog) :
    (Prog.withCommentsAndPuncAttached id p ms).ren τ = Prog.withCommentsAndPuncAttached (τ id).id (p.map (Punc.ren τ)) (Prog.rens τ ms) := by
  simp only [Prog.withCommentsAndPuncAttached, Prog.ren, Prog.rens, ren_append, ren_punctOpt]
theorem ren_danglingBracket (id : Nat) : (Prog.danglingBracket id).ren τ = Prog.danglingBracket (τ id).id := by
  simp only [Prog.danglingBracket, Prog.ren, Prog.rens, ren_t]

theorem punc_search (ls : List Loc) : Punc.search (ls.map (Loc.ren τ)) = (Punc.search ls).map (Punc.ren τ) := by
  induction ls with
  | nil => rfl
  | cons l ls ih =>
    rw [List.map_cons, Punc.search, Punc.search, loc_extra, loc_kind, ih]
    split
    · rfl
    · split
      · simp only [Option.map, Punc.ofLoc, Punc.ren, loc_kind, loc_id]
      · rfl
theorem punc_from (l : Loc) : Punc.from (l.ren τ) = (Punc.from l).map (Punc.ren τ) := by
  rw [Punc.from, loc_right, punc_search, Punc.from]
theorem punc_fromInner (l : Loc) : Punc.fromInner (l.ren τ) = (Punc.fromInner l).map (Punc.ren τ) := by
  rw [Punc.fromInner, loc_children, find_ren τ (p := fun c => isPunctuationKind c.kind) (fun l => by rw [loc_kind]), Punc.fromInner]
  cases l.children.find? (fun c => isPunctuationKind c.kind) with
  | none => rfl
  | some c => simp only [Option.map, Punc.ofLoc, Punc.ren, loc_kind, loc_id]

theorem ren_bwcp (l : Loc) (ms : List Prog) : (Prog.New.bwcp l ms).ren τ = Prog.New.bwcp (l.ren τ) (Prog.rens τ ms) := by
  rw [Prog.New.bwcp, ren_wcp, Prog.New.bwcp, loc_id, punc_from]
theorem ren_bwc (l : Loc) (ms : List Prog) : (Prog.New.bwc l ms).ren τ = Prog.New.bwc (l.ren τ) (Prog.rens τ ms) := by
  rw [Prog.New.bwc, ren_withComments, Prog.New.bwc, loc_id]

theorem E.optK (e : E root τ cfg cfg' rec rec') (hn : In root n) {c : Cls} {k : String} (hk : ∀ l, n.tryCByK k = some l → K τ c l) :
    optR ((n.ren τ).tryCByK k) (rec' c) = (optR (n.tryCByK k) (rec c)).map (Option.map (Prog.ren τ)) := by
  rw [loc_tryCByK]
  exact optE (fun l hl => e.call c l (in_tryCByK hn hl) (hk l hl))
theorem E.optN (e : E root τ cfg cfg' rec rec') (hn : In root n) {c : Cls} {k : String} (hk : ∀ l, n.tryCByN k = some l → K τ c l) :
    optR ((n.ren τ).tryCByN k) (rec' c) = (optR (n.tryCByN k) (rec c)).map (Option.map (Prog.ren τ)) := by
  rw [loc_tryCByN]
  exact optE (fun l hl => e.call c l (in_tryCByN hn hl) (hk l hl))

theorem rens_fun : Prog.rens τ = List.map (Prog.ren τ) := by funext ps; exact rens_eq τ ps

theorem E.mapL (e : E root τ cfg cfg' rec rec') {c : Cls} {ls : List Loc} (h : ∀ l ∈ ls, In root l) (hk : ∀ l ∈ ls, K τ c l) :
    mapR (rec' c) (ls.map (Loc.ren τ)) = (mapR (rec c) ls).map (Prog.rens τ) := by
  rw [rens_fun]
  exact mapE (fun l hl => e.call c l (h l hl) (hk l hl))
theorem E.mapV (e : E root τ cfg cfg' rec rec') (hn : In root n) {c : Cls} (hk : ∀ l ∈ n.childrenVec, K τ c l) :
    mapR (rec' c) (n.ren τ).childrenVec = (mapR (rec c) n.childrenVec).map (Prog.rens τ) := by
  rw [loc_childrenVec]
  exact e.mapL (fun l hl => in_vec hn hl) hk
theorem E.mapK (e : E root τ cfg cfg' rec rec') (hn : In root n) {c : Cls} {k : String} (hk : ∀ l ∈ n.tryCsByK k, K τ c l) :
    mapR (rec' c) ((n.ren τ).tryCsByK k) = (mapR (rec c) (n.tryCsByK k)).map (Prog.rens τ) := by
  rw [loc_tryCsByK]
  exact e.mapL (fun l hl => in_tryCsByK hn hl) hk

theorem rens_isEmpty (ps : List Prog) : (Prog.rens τ ps).isEmpty = ps.isEmpty := by
  cases ps <;> rw [Prog.rens] <;> rfl

theorem ren_ite {c : Prop} [Decidable c] (p q : Prog) : (if c then p else q).ren τ = if c then p.ren τ else q.ren τ := by
  split <;> rfl
theorem rens_ite {c : Prop} [Decidable c] (p q : List Prog) :
    Prog.rens τ (if c then p else q) = if c then Prog.rens τ p else Prog.rens τ q := by
  split <;> rfl

theorem okE {α β : Type} {f : α → β} {a : α} {b : β} (h : b = f a) : (Except.ok b : R β) = (Except.ok a : R α).map f := by
  rw [h]; rfl

theorem isQuery_ren (l : Loc) : isQueryExpression (l.ren τ) = isQueryExpression l := by
  rw [isQueryExpression, loc_kind, isQueryExpression]
theorem isBinary_ren (l : Loc) : isBinaryExp (l.ren τ) = isBinaryExp l := by
  rw [isBinaryExp, loc_kind, isBinaryExp]

theorem iteE {α β : Type} {f : α → β} {c c' : Prop} [Decidable c] [Decidable c'] {x y : R α} {x' y' : R β} (hc : c' ↔ c)
    (h1 : c → x' = x.map f) (h2 : ¬ c → y' = y.map f) : (if c' then x' else y') = (if c then x else y).map f := by
  by_cases h : c
  · rw [if_pos h, if_pos (hc.mpr h), h1 h]
  · rw [if_neg h, if_neg (fun g => h (hc.mp g)), h2 h]

theorem errE {α β : Type} {f : α → β} {p : Panic} : (Except.error p : R β) = (Except.error p : R α).map f := rfl

theorem chaining_ren (l : Loc) : buildChainingContext (l.ren τ) = buildChainingContext l := by
  rw [buildChainingContext, loc_parent, loc_tryCByN, buildChainingContext]
  cases l.parent with
  | none => rfl
  | some p =>
    simp only [Option.map_some, loc_kind]
    cases l.tryCByN "object" with
    | none => rfl
    | some o => simp only [Option.map_some, loc_kind]

theorem E.members (e : E root τ cfg cfg' rec rec') (hn : In root n) (hb : n.isBody = true) {c : Cls}
    (hk : ∀ l, K τ c l) : mapR (Prog.New.bodyMember cfg' rec' c) (n.ren τ).childrenVec =
      (mapR (Prog.New.bodyMember cfg rec c) n.childrenVec).map (renBody τ) := by
  rw [loc_childrenVec]
  exact mapE (fun l hl => bodyMemberE e hn hb hl (hk l))

theorem kind_of_check {k : String} {u : Unit} (h : assertCheck n k = .ok u) : n.kind = k := by
  unfold assertCheck at h
  split at h
  · rename_i h'
    simpa using h'
  · cases h

theorem body_of_kind {k : String} (h : n.kind = k) (hk : ["parser_output", "class_body", "block", "interface_body"].contains k = true) :
    n.isBody = true := by
  subst h
  rw [Loc.isBody, isBodyNode, hk, Bool.true_or]

theorem ren_bracketBody (ms : List (Bool × Prog)) : (Prog.New.bracketBody n ms).ren τ = Prog.New.bracketBody (n.ren τ) (renBody τ ms) := by
  simp only [Prog.New.bracketBody, Prog.ren, Prog.rens, ren_danglingBracket, ren_surroundBody, loc_id]
theorem ren_declaratorsDoc (ps : List Prog) : (Prog.New.declaratorsDoc ps).ren τ = Prog.New.declaratorsDoc (Prog.rens τ ps) := by
  unfold Prog.New.declaratorsDoc
  match ps with
  | [] => simp only [Prog.rens, Prog.ren, ren_intersperse, ren_after]
  | [p] => simp only [Prog.rens]
  | p :: q :: ps => simp only [Prog.rens, Prog.ren, ren_intersperse, ren_after]
theorem ren_chainDoc (ctx : Option ChainingContext) (o : Prog) (ps : List Prog) :
    (Prog.New.chainDoc ctx o ps).ren τ = Prog.New.chainDoc ctx (o.ren τ) (Prog.rens τ ps) := by
  unfold Prog.New.chainDoc
  cases ctx with
  | none => simp only [Prog.ren, ren_append, Prog.rens]
  | some c => simp only [ren_ite, Prog.ren, ren_append, Prog.rens, rens_ite, ren_groupIndentConcat]

set_option hygiene false in
/-- What a call needs. -/
macro "kk" : tactic => `(tactic| first
  | exact trivial
  | exact field_tryCByN (by assumption)
  | exact e.kept_cByN (by assumption) (by assumption) (by decide)
  | exact e.kept_cByK (by assumption) (by assumption) (by decide)
  | exact e.capital_cByK (by assumption) (by assumption) (by decide)
  | exact e.kept_tryCByK (by assumption) (by assumption) (by decide)
  | exact e.kept_tryCByN (by assumption) (by assumption) (by decide)
  | exact e.kept_kind (by assumption) (by assumption) (by decide)
  | exact e.kept_mem (by assumption) (by assumption) (by decide)
  | exact e.kept_cs (by assumption) (by assumption) (by assumption) (by decide))

set_option hygiene false in
/-- One step of a constructor. -/
macro "rs" : tactic => `(tactic| first
  | (refine bindS (assertCheck_ren _ _ _) ?_; intro _ _)
  | (refine bindE (loc_cByN _ _ _) ?_; intro _ hc; have := in_cByN (by assumption) hc)
  | (refine bindE (loc_cByK _ _ _) ?_; intro _ hc; have := in_cByK (by assumption) hc)
  | (refine bindE (loc_firstC _ _) ?_; intro _ hc; have := in_firstC (by assumption) hc)
  | (refine bindE (loc_nextNamed _ _) ?_; intro _ hc; have := in_nextNamed (by assumption) hc)
  | (refine bindE (loc_csByK _ _ _) ?_; intro _ hcs; have := fun c => in_csByK (c := c) (by assumption) hcs)
  | (refine bindE (loc_csByN _ _ _) ?_; intro _ hcs; have := fun c => in_csByN (c := c) (by assumption) hcs)
  | (refine bindS (e.cvalueByN (by assumption) (by decide)) ?_; intro _ _)
  | (refine bindS (e.cvalueByK (by assumption) (by decide)) ?_; intro _ _)
  | (refine bindE (e.call _ _ (by assumption) (by kk)) ?_; intro _ _)
  | (refine bindE (e.optK (by assumption) (by intro _ _; kk)) ?_; intro _ _)
  | (refine bindE (e.optN (by assumption) (by intro _ _; kk)) ?_; intro _ _)
  | (refine bindE (e.mapV (by assumption) (by intro _ _; kk)) ?_; intro _ _)
  | (refine bindE (e.mapK (by assumption) (by intro _ _; kk)) ?_; intro _ _)
  | (refine bindE (e.mapL (by assumption) (by intro _ _; kk)) ?_; intro _ _)
  | (refine bindE (e.dispatch (by assumption) (by decide)) ?_; intro _ _)
  | (refine bindS (chaining_ren _) ?_; intro _ _)
  | (refine iteE (by simp only [loc_kind]) ?_ ?_ <;> intro _)
  | exact errE
  | exact e.dispatch (by assumption) (by decide)
  | exact e.call _ _ (by assumption) (by kk)
  | rfl)

/-- Documents with other ids. -/
macro "docs" : tactic => `(tactic|
  simp only [ren_bracketBody, ren_declaratorsDoc, ren_chainDoc, ren_bwcp, ren_bwc, ren_t, ren_tL, ren_tR, ren_tLR, ren_txtR, ren_txtLR, ren_nil, ren_groupConcat, ren_groupIndent,
    ren_groupIndentConcat, rens_opt, rens_optT, ren_intersperse, ren_s, ren_after, ren_sAfter, ren_before, ren_surround,
    ren_groupSurround, ren_parenList, ren_intersperseBody, ren_surroundBody, ren_wcp, ren_wcpa, ren_danglingBracket,
    ren_withComments, ren_append, rens_isEmpty, ren_ite, rens_ite, Prog.ren, Prog.rens, loc_kind, loc_id, isQuery_ren, isBinary_ren, Option.map_some, Option.map_none, punc_from, punc_fromInner,
    Option.isSome_map, Option.isNone_map, List.isEmpty_map, List.nil_append, List.cons_append])

set_option hygiene false in
/-- The result of a constructor. -/
macro "fin" : tactic => `(tactic| (refine okE ?_; first
  | (docs; done)
  | (docs; rfl)
  | ((repeat' (rename Option Prog => o; cases o)) <;> docs <;> rfl)))

end Afmt
