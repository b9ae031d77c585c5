import Verif.ShapeFormat
import Verif.PropsFormat

/-!
# What the result depends on: C32, C50

`skeleton` (Verif/Skel.lean) is what is left of a tree without node ids, rows, byte offsets and the texts of inner nodes.
-/

namespace Afmt

/-! ## C50: only the skeleton matters -/

/-- **C50**: two trees with the same skeleton have the same formatted text, or neither is formatted.  In particular the
layout of the source within a line, the place of line breaks between the tokens of a declaration or a statement, and the number of
blank lines (beyond one) do not influence the result. -/
theorem C50_only_the_skeleton_matters (a b : Node) (checks : Bool) (h : skeleton checks a = skeleton checks b) (ha : a.ids.Nodup) (hb : b.ids.Nodup)
    (depth : Nat) (cfg : Config) (out : Str) :
    formatTree checks depth cfg a = .ok out ↔ formatTree checks depth cfg b = .ok out := by
  obtain ⟨τ, inj, rfl⟩ := exists_renaming h ha hb
  cases he : a.hasError with
  | false => rw [format_ren inj checks h ha he]
  | true =>
    have key : ∀ n : Node, n.hasError = true → formatTree checks depth cfg n ≠ .ok out := by
      intro n hn
      unfold formatTree checkParsed
      rw [hn, if_pos rfl]
      split
      · intro h; cases h
      · rename_i hq
        split at hq
        · split at hq <;> cases hq
        · cases hq
    exact ⟨fun h => absurd h (key a he), fun h => absurd h (key _ (by rw [hasError_ren]; exact he))⟩

/-- **C50**, failures: without syntax errors trees with the same skeleton also fail alike, with the same panic. -/
theorem C50_failures_too (a b : Node) (checks : Bool) (h : skeleton checks a = skeleton checks b) (ha : a.ids.Nodup) (hb : b.ids.Nodup)
    (he : a.hasError = false) (depth : Nat) (cfg : Config) :
    formatTree checks depth cfg a = formatTree checks depth cfg b := by
  obtain ⟨τ, inj, rfl⟩ := exists_renaming h ha hb
  exact (format_ren inj checks h ha he depth cfg).symm

/-! ### Examples -/

/-- Example: a field `Integer x;` with the given first id, row and source text. -/
def exShapeField (id row : Nat) (name text : String) : Node := exNode id "field_declaration" row row text [
  exField "type" (exNode (id + 1) "type_identifier" row row "Integer" []),
  exField "declarator" (exNode (id + 2) "variable_declarator" row row name [
    exField "name" (exNode (id + 3) "identifier" row row name [])]), exTok (id + 4) ";" row]

/-- Example: `class A {⏎ Integer x;⏎ // c⏎ ⏎ Integer y; }`. -/
def exShape1 : Node := exNode 1 "parser_output" 0 4 "" [
  exNode 2 "class_declaration" 0 4 "class A {\n Integer x;\n // c\n\n Integer y; }" [
    exTok 3 "class" 0, exField "name" (exNode 4 "identifier" 0 0 "A" []),
    exField "body" (exNode 5 "class_body" 0 4 "{\n Integer x;\n // c\n\n Integer y; }" [exTok 6 "{" 0,
      exShapeField 10 1 "x" "Integer x;", exComment 7 true 2 "// c", exShapeField 20 4 "y" "Integer y;", exTok 8 "}" 4])]]

/-- Example: the same with other ids, line breaks, blank lines, blanks and spelling of the keyword. -/
def exShape2 : Node := exNode 100 "parser_output" 2 20 "" [
  exNode 200 "class_declaration" 2 20 "ClAsS\n A {\n ... }" [
    exTok 300 "class" 2, exField "name" (exNode 400 "identifier" 3 3 "A" []),
    exField "body" (exNode 500 "class_body" 3 20 "..." [exTok 600 "{" 3,
      exShapeField 1000 6 "x" "Integer     x ;", exComment 700 true 7 "// c", exShapeField 2000 17 "y" "Integer  y ;", exTok 800 "}" 20])]]

/-- Example: without the blank line. -/
def exShape3 : Node := exNode 100 "parser_output" 2 20 "" [
  exNode 200 "class_declaration" 2 20 "" [
    exTok 300 "class" 2, exField "name" (exNode 400 "identifier" 3 3 "A" []),
    exField "body" (exNode 500 "class_body" 3 20 "" [exTok 600 "{" 3,
      exShapeField 1000 6 "x" "", exComment 700 true 7 "// c", exShapeField 2000 8 "y" "", exTok 800 "}" 20])]]

example : skeleton true exShape1 = skeleton true exShape2 := rfl
example : exShape1.ids.Nodup ∧ exShape2.ids.Nodup ∧ exShape1.hasError = false := by decide
example : formatTree true 20 ⟨80, 2⟩ exShape1 = .ok "class A {\n  Integer x;\n  // c\n\n  Integer y;\n}\n".toList := by
  decide +kernel
example : formatTree true 20 ⟨80, 2⟩ exShape2 = formatTree true 20 ⟨80, 2⟩ exShape1 :=
  C50_failures_too _ _ _ rfl (by decide) (by decide) (by decide) _ _
/-- A missing blank line does change the skeleton and the result. -/
example : skeleton true exShape1 ≠ skeleton true exShape3 ∧ formatTree true 20 ⟨80, 2⟩ exShape3 ≠ formatTree true 20 ⟨80, 2⟩ exShape1 := by
  refine ⟨?_, by decide +kernel⟩
  intro h
  simp [skeleton, exShape1, exShape3, exShapeField, exNode, exTok, exComment, exField, Node.skel, skels, around] at h

/-- Example: `class A {⏎ Integer x;⏎ c⏎ }` with a block comment. -/
def exShapeNote (id : Nat) (text : String) (rows : Nat) : Node := exNode id "parser_output" 0 (3 + rows) "" [
  exNode (id + 1) "class_declaration" 0 (3 + rows) "" [
    exTok (id + 2) "class" 0, exField "name" (exNode (id + 3) "identifier" 0 0 "A" []),
    exField "body" (exNode (id + 4) "class_body" 0 (3 + rows) "" [exTok (id + 5) "{" 0,
      exShapeField (id + 10) 1 "x" "Integer x;", exComment (id + 6) false 2 text, exTok (id + 7) "}" (3 + rows)])]]

/-- The indentation of the lines of a comment, blanks at their ends and the place of the opening do not matter. -/
example : formatTree true 20 ⟨80, 2⟩ (exShapeNote 1 "/**\n     * a\n * b\n   */" 3) =
    formatTree true 20 ⟨80, 2⟩ (exShapeNote 100 "/** a  \n       b*/" 1) :=
  C50_failures_too _ _ _ (by rfl) (by decide) (by decide) (by decide) _ _
example : formatTree true 20 ⟨80, 2⟩ (exShapeNote 1 "/**\n     * a\n * b\n   */" 3) =
    .ok "class A {\n  Integer x;\n  /**\n   * a\n   * b\n   */\n}\n".toList := by
  decide +kernel

/-! ### Trees at other places -/

mutual
/-- The tree with other ids, rows and byte offsets. -/
def Node.place (f r b : Nat → Nat) : Node → Node
  | .mk id kind named extra err field sr er sb eb text children =>
    .mk (f id) kind named extra err field (r sr) (r er) (b sb) (b eb) text (placeAll f r b children)
/-- The trees with other ids, rows and byte offsets. -/
def placeAll (f r b : Nat → Nat) : List Node → List Node
  | [] => []
  | n :: ns => n.place f r b :: placeAll f r b ns
end

/-- Two assignments of rows agree on what shares a line, what is separated by a blank line, and what is in the first line. -/
def SameRows (r r' : Nat → Nat) : Prop :=
  ∀ x y, (r x = r y ↔ r' x = r' y) ∧ (r x + 1 < r y ↔ r' x + 1 < r' y) ∧ (r x = 0 ↔ r' x = 0)

/-- Two assignments of offsets agree on the order. -/
def SameOrder (b b' : Nat → Nat) : Prop := ∀ x y, b x < b y ↔ b' x < b' y

section place
variable {f r b f' r' b' : Nat → Nat}

theorem placeAll_eq (ns : List Node) : placeAll f r b ns = ns.map (Node.place f r b) := by
  induction ns with
  | nil => rw [placeAll, List.map_nil]
  | cons n ns ih => rw [placeAll, ih, List.map_cons]

theorem place_find {p : Node → Bool} (hp : ∀ n : Node, p (n.place f r b) = p n) (ns : List Node) :
    (ns.map (Node.place f r b)).find? p = (ns.find? p).map (Node.place f r b) := by
  rw [List.find?_map]
  congr 1
  congr 1
  funext x
  exact hp x

theorem place_named (n : Node) : (n.place f r b).named = n.named := by cases n; rw [Node.place]
theorem place_extra (n : Node) : (n.place f r b).extra = n.extra := by cases n; rw [Node.place]
theorem place_kind (n : Node) : (n.place f r b).kind = n.kind := by cases n; rw [Node.place]
theorem place_field (n : Node) : (n.place f r b).field = n.field := by cases n; rw [Node.place]
theorem place_startRow (n : Node) : (n.place f r b).startRow = r n.startRow := by cases n; rw [Node.place]
theorem place_endRow (n : Node) : (n.place f r b).endRow = r n.endRow := by cases n; rw [Node.place]
theorem place_startByte (n : Node) : (n.place f r b).startByte = b n.startByte := by cases n; rw [Node.place]
theorem place_children (n : Node) : (n.place f r b).children = n.children.map (Node.place f r b) := by
  cases n; rw [Node.place, placeAll_eq]
theorem place_code (n : Node) : (n.place f r b).isCode = n.isCode := by
  rw [Node.isCode, place_extra, place_named, place_kind, Node.isCode]
theorem place_shown (pk : String) (pf : Option String) (n : Node) : (n.place f r b).shown pk pf = n.shown pk pf := by
  unfold Node.shown
  rw [place_extra, place_kind, place_field, place_children, List.any_map]
  simp only [Function.comp_def, place_named]

theorem beq_of_iff {a b c d : Nat} (h : a = b ↔ c = d) : (a == b) = (c == d) := by
  rw [Bool.eq_iff_iff, beq_iff_eq, beq_iff_eq]
  exact h

theorem place_around (checks : Bool) (hr : SameRows r r') (body : Bool) (lefts : List Node) (n : Node) (rights : List Node) :
    around checks body (lefts.map (Node.place f r b)) (n.place f r b) (rights.map (Node.place f r b)) =
      around checks body (lefts.map (Node.place f' r' b')) (n.place f' r' b') (rights.map (Node.place f' r' b')) := by
  have h1 : ∀ x y, (r x == r y) = (r' x == r' y) := fun x y => beq_of_iff (hr x y).1
  have h2 : ∀ x y, decide (r x + 1 < r y) = decide (r' x + 1 < r' y) := fun x y => decide_eq_decide.mpr (hr x y).2.1
  have h3 : ∀ x, (r x == 0) = (r' x == 0) := fun x => beq_of_iff (hr x x).2.2
  unfold around
  simp only [place_find place_named, place_find place_code, Option.map_map, place_extra, place_named]
  simp only [Function.comp_def, place_startRow, place_endRow, h1, h2, h3]

theorem place_opFirst (hb : SameOrder b b') (n : Node) : (n.place f r b).operatorFirst = (n.place f' r' b').operatorFirst := by
  unfold Node.operatorFirst
  rw [place_children, place_children]
  have p1 : ∀ (s : String) (f r b : Nat → Nat) (n : Node), ((n.place f r b).field == some s) = (n.field == some s) := by
    intro s f r b n; rw [place_field]
  rw [place_find (p1 "operator" f r b), place_find (p1 "operand" f r b), place_find (p1 "operator" f' r' b'),
    place_find (p1 "operand" f' r' b')]
  cases n.children.find? (fun x => x.field == some "operator") with
  | none => rfl
  | some o =>
    cases n.children.find? (fun x => x.field == some "operand") with
    | none => rfl
    | some x =>
      simp only [Option.map_some, place_startByte, Option.some.injEq]
      exact decide_eq_decide.mpr (hb _ _)

mutual
theorem place_skel (checks : Bool) (hr : SameRows r r') (hb : SameOrder b b') (pk : String) (pf : Option String) (body : Bool)
    (lefts rights : List Node) : ∀ n : Node,
    (n.place f r b).skel checks pk pf body (lefts.map (Node.place f r b)) (rights.map (Node.place f r b)) =
      (n.place f' r' b').skel checks pk pf body (lefts.map (Node.place f' r' b')) (rights.map (Node.place f' r' b'))
  | .mk id kind named extra err field sr er sb eb text children => by
    have h1 := place_around (f := f) (b := b) (f' := f') (b' := b') checks hr body lefts
      (.mk id kind named extra err field sr er sb eb text children) rights
    have h2 := place_opFirst (f := f) (r := r) (f' := f') (r' := r') hb (.mk id kind named extra err field sr er sb eb text children)
    have h3 := place_shown (f := f) (r := r) (b := b) pk pf (.mk id kind named extra err field sr er sb eb text children)
    have h4 := place_shown (f := f') (r := r') (b := b') pk pf (.mk id kind named extra err field sr er sb eb text children)
    have h5 := place_skels checks hr hb kind field (isBodyNode pk field kind) children []
    simp only [Node.place] at h1 h2 h3 h4 ⊢
    rw [Node.skel, Node.skel]
    simp only [h1, h2, h3, h4]
    rw [placeAll_eq, placeAll_eq]
    exact congrArg _ h5
theorem place_skels (checks : Bool) (hr : SameRows r r') (hb : SameOrder b b') (pk : String) (pf : Option String) (body : Bool) : ∀ ns lefts : List Node,
    skels checks pk pf body (lefts.map (Node.place f r b)) (ns.map (Node.place f r b)) =
      skels checks pk pf body (lefts.map (Node.place f' r' b')) (ns.map (Node.place f' r' b'))
  | [], _ => by rw [List.map_nil, List.map_nil, skels, skels]
  | n :: ns, lefts => by
    rw [List.map_cons, List.map_cons, skels, skels, place_skel checks hr hb pk pf body lefts ns n]
    have := place_skels checks hr hb pk pf body ns (n :: lefts)
    rw [List.map_cons, List.map_cons] at this
    rw [this]
end

mutual
theorem place_ids : ∀ n : Node, (n.place f r b).ids = n.ids.map f
  | .mk id kind named extra err field sr er sb eb text children => by
    rw [Node.place, Node.ids, Node.ids, List.map_cons, placeAll_ids children]
theorem placeAll_ids : ∀ ns : List Node, idsOf (placeAll f r b ns) = (idsOf ns).map f
  | [] => rfl
  | n :: ns => by rw [placeAll, idsOf, idsOf, List.map_append, place_ids n, placeAll_ids ns]
end

mutual
theorem place_hasError : ∀ n : Node, (n.place f r b).hasError = n.hasError
  | .mk id kind named extra err field sr er sb eb text children => by
    rw [Node.place, Node.hasError, Node.hasError, placeAll_hasError children]
theorem placeAll_hasError : ∀ ns : List Node, kidsHaveError (placeAll f r b ns) = kidsHaveError ns
  | [] => rfl
  | n :: ns => by rw [placeAll, kidsHaveError, kidsHaveError, place_hasError n, placeAll_hasError ns]
end

mutual
theorem place_lastError : ∀ n : Node, findLastErrorNode (n.place f r b) = (findLastErrorNode n).map (Node.place f r b)
  | .mk id kind named extra err field sr er sb eb text children => by
    have he := place_hasError (f := f) (r := r) (b := b) (.mk id kind named extra err field sr er sb eb text children)
    have hk := placeAll_lastError children (some (.mk id kind named extra err field sr er sb eb text children))
    rw [Option.map_some] at hk
    rw [Node.place] at he hk ⊢
    rw [findLastErrorNode, findLastErrorNode]
    simp only [he]
    split
    · rfl
    · exact hk
theorem placeAll_lastError : ∀ (ns : List Node) (acc : Option Node),
    findLastErrorKids (acc.map (Node.place f r b)) (placeAll f r b ns) = (findLastErrorKids acc ns).map (Node.place f r b)
  | [], acc => rfl
  | n :: ns, acc => by
    rw [placeAll, findLastErrorKids, findLastErrorKids, place_hasError, place_lastError n, ← placeAll_lastError ns]
    congr 1
    split <;> rfl
end

theorem nodup_map {f : Nat → Nat} : ∀ {l : List Nat}, l.Nodup → (∀ i ∈ l, ∀ j ∈ l, f i = f j → i = j) → (l.map f).Nodup
  | [], _, _ => List.nodup_nil
  | a :: l, h, hf => by
    rw [List.nodup_cons] at h
    rw [List.map_cons, List.nodup_cons]
    refine ⟨?_, nodup_map h.2 (fun i hi j hj => hf i (List.mem_cons_of_mem _ hi) j (List.mem_cons_of_mem _ hj))⟩
    intro hm
    obtain ⟨c, hc, e⟩ := List.mem_map.mp hm
    exact h.1 (hf c (List.mem_cons_of_mem _ hc) a (List.mem_cons_self ..) e ▸ hc)

theorem place_format {root : Node} (hn : root.ids.Nodup) (hf : ∀ i ∈ root.ids, ∀ j ∈ root.ids, f i = f j → i = j)
    (hf' : ∀ i ∈ root.ids, ∀ j ∈ root.ids, f' i = f' j → i = j) (hr : SameRows r r') (hb : SameOrder b b') (checks : Bool)
    (depth : Nat) (cfg : Config) :
    formatTree checks depth cfg (root.place f r b) = formatTree checks depth cfg (root.place f' r' b') := by
  cases he : root.hasError with
  | false =>
    refine C50_failures_too _ _ checks (place_skel checks hr hb "" none false [] [] root) ?_ ?_ (by rw [place_hasError]; exact he) depth cfg
    · rw [place_ids]; exact nodup_map hn hf
    · rw [place_ids]; exact nodup_map hn hf'
  | true =>
    have key : ∀ f r b : Nat → Nat, formatTree checks depth cfg (root.place f r b) = formatTree checks depth cfg root := by
      intro f r b
      unfold formatTree checkParsed
      rw [place_hasError, he, place_lastError]
      simp only [if_true]
      cases findLastErrorNode root with
      | none => rfl
      | some e =>
        simp only [Option.map_some]
        have : (e.place f r b).text = e.text := by cases e; rw [Node.place]
        rw [this]
    rw [key, key]

end place

/-- **C50**, positions: moving everything to other rows and columns does not change the result (text or panic) as long as
the nodes share lines, are separated by blank lines and are in the first line as before. -/
theorem C50_positions (root : Node) (hn : root.ids.Nodup) (r b r' b' : Nat → Nat) (hr : SameRows r r') (hb : SameOrder b b')
    (checks : Bool) (depth : Nat) (cfg : Config) :
    formatTree checks depth cfg (root.place id r b) = formatTree checks depth cfg (root.place id r' b') :=
  place_format hn (fun _ _ _ _ h => h) (fun _ _ _ _ h => h) hr hb checks depth cfg

example : SameRows (fun x => x) (fun x => 2 * x) → False := fun h => absurd ((h 0 1).2.1.mpr (by decide)) (by decide)
example : SameRows (fun x => 3 * x + 1) (fun x => 5 * x + 2) := by intro x y; simp only; omega
example : SameOrder (fun x => 2 * x) (fun x => x + 7) := by intro x y; simp only; omega
example : formatTree true 20 ⟨80, 2⟩ (exShape1.place id (fun x => 3 * x + 1) id) =
    .ok "class A {\n  Integer x;\n\n  // c\n\n  Integer y;\n}\n".toList := by decide +kernel

/-- **C50**, the number of empty lines before the first line of the source does not matter, if there is one. -/
theorem C50_leading_empty_lines (root : Node) (hn : root.ids.Nodup) (j k : Nat) (checks : Bool) (depth : Nat) (cfg : Config) :
    formatTree checks depth cfg (root.place id (· + (j + 1)) (· + (j + 1))) =
      formatTree checks depth cfg (root.place id (· + (k + 1)) (· + (k + 1))) := by
  refine C50_positions root hn _ _ _ _ ?_ ?_ checks depth cfg
  · intro x y
    simp only
    omega
  · intro x y
    simp only
    omega

/-! ## C32: node ids and the order of the map -/

mutual
/-- The tree with other node ids. -/
def Node.relabel (f : Nat → Nat) : Node → Node
  | .mk id kind named extra err field sr er sb eb text children =>
    .mk (f id) kind named extra err field sr er sb eb text (relabelAll f children)
/-- The trees with other node ids. -/
def relabelAll (f : Nat → Nat) : List Node → List Node
  | [] => []
  | n :: ns => n.relabel f :: relabelAll f ns
end

mutual
theorem relabel_place (f : Nat → Nat) : ∀ n : Node, n.relabel f = n.place f id id
  | .mk id kind named extra err field sr er sb eb text children => by
    rw [Node.relabel, Node.place, relabelAll_place f children]
    rfl
theorem relabelAll_place (f : Nat → Nat) : ∀ ns : List Node, relabelAll f ns = placeAll f id id ns
  | [] => rfl
  | n :: ns => by rw [relabelAll, placeAll, relabel_place f n, relabelAll_place f ns]
end

mutual
theorem place_id : ∀ n : Node, n.place id id id = n
  | .mk i kind named extra err field sr er sb eb text children => by
    rw [Node.place, placeAll_id children]
    rfl
theorem placeAll_id : ∀ ns : List Node, placeAll id id id ns = ns
  | [] => rfl
  | n :: ns => by rw [placeAll, place_id n, placeAll_id ns]
end

/-- **C32**, node ids: the ids the parser assigns (addresses) have no influence on the result, text or panic, as long as
different nodes have different ids. -/
theorem C32_ids_irrelevant (root : Node) (hn : root.ids.Nodup) (f : Nat → Nat)
    (hf : ∀ i ∈ root.ids, ∀ j ∈ root.ids, f i = f j → i = j) (checks : Bool) (depth : Nat) (cfg : Config) :
    formatTree checks depth cfg (root.relabel f) = formatTree checks depth cfg root := by
  rw [relabel_place, show formatTree checks depth cfg root = formatTree checks depth cfg (root.place id id id) by rw [place_id]]
  exact place_format hn hf (fun _ _ _ _ h => h) (fun x y => ⟨Iff.rfl, Iff.rfl, Iff.rfl⟩) (fun x y => Iff.rfl) checks depth cfg

example : formatTree true 20 ⟨80, 2⟩ (exShape1.relabel (fun i => 1000 - i)) = formatTree true 20 ⟨80, 2⟩ exShape1 :=
  C32_ids_irrelevant _ (by decide) _ (by decide) _ _ _
/-- Different nodes with the same id: the comment is lost. -/
example : formatTree true 20 ⟨80, 2⟩ (exShape1.relabel (fun _ => 0)) ≠ formatTree true 20 ⟨80, 2⟩ exShape1 := by decide +kernel

theorem get_mem {cm : CMap} (h : (cm.map (·.1)).Nodup) (i : Nat) (b : Bucket) : cm.get? i = some b ↔ (i, b) ∈ cm := by
  induction cm with
  | nil => simp [CMap.get?]
  | cons p cm ih =>
    rw [List.map_cons, List.nodup_cons] at h
    have ih := ih h.2
    unfold CMap.get? at ih ⊢
    rw [List.find?_cons]
    by_cases hp : p.1 = i
    · simp only [hp, beq_self_eq_true, Option.map_some, Option.some.injEq, List.mem_cons]
      constructor
      · rintro rfl; left; rw [← hp]
      · rintro (e | e)
        · rw [← e]
        · exact absurd (hp ▸ List.mem_map_of_mem (f := (·.1)) e) h.1
    · have : (p.1 == i) = false := by simpa using hp
      simp only [this, List.mem_cons]
      rw [ih]
      constructor
      · exact Or.inr
      · rintro (e | e)
        · exact absurd (by rw [← e]) hp
        · exact e

theorem self_pairs (root : Node) : ∀ x ∈ root.pairs root, x.2.id = x.1 := by
  obtain ⟨p1, p2, _⟩ := pairs_spec true root root "" none false [] [] "" none false [] [] rfl
  exact fun x hx => map_eq_of (p2.trans p1.symm) x hx

/-- **C32**, map order: the result does not depend on the order in which the comment map lists its entries. -/
theorem C32_map_order_irrelevant (root : Node) (hn : root.ids.Nodup) (cm cm' : CMap) (hc : commentMap root = .ok cm)
    (hp : cm.Perm cm') (checks : Bool) (depth : Nat) (cfg : Config) :
    enrichAndPrint checks depth cfg root cm' = enrichAndPrint checks depth cfg root cm := by
  obtain ⟨p1, _, p3⟩ := pairs_spec true root root "" none false [] [] "" none false [] [] rfl
  let τ : Nat → Pos := fun i => { mkRen 0 (root.pairs root) i with id := i }
  have hτ : root.ren τ = root := by
    refine p3 τ ?_
    intro x hx
    have h1 := mkRen_mem 0 (root.pairs root) (p1 ▸ hn) x hx
    show ({ mkRen 0 (root.pairs root) x.1 with id := x.1 } : Pos) = x.2
    rw [h1, ← self_pairs root x hx]
  have hcr := fun c hc' => comment_fixed hτ (fun _ => rfl) hc c hc'
  have hd := collect_nodup root [] cm hc (by simp [KeysNodup])
  have hd' : (cm'.map (·.1)).Nodup := (hp.map (fun p : Nat × Bucket => p.1)).nodup_iff.mp hd
  have hg : ∀ i, cm'.get? i = cm.get? i := by
    intro i
    apply Option.ext
    intro b
    rw [get_mem hd', get_mem hd]
    exact hp.symm.mem_iff
  have hm : SameMap τ cm cm' := by
    refine ⟨?_, ?_⟩
    · intro i
      show getBucket cm' i = _
      unfold getBucket
      rw [hg]
      cases hb : cm.get? i with
      | none => rfl
      | some b =>
        simp only [Except.map, bucket_fixed (fun c hc' => hcr c (getBucket_mem (id := i) (by rw [getBucket, hb]) c hc'))]
    · intro c
      rw [← all_fixed hcr]
      exact (hp.symm.map _).flatten.mem_iff
  have := enrich_ren (root := root) (τ := τ) checks (by rw [hτ]) hm (sameText_id hcr) depth cfg
  rw [hτ] at this
  exact this

example : ∃ cm, commentMap exShape1 = .ok cm ∧ cm.length = 14 ∧ cm.reverse ≠ cm ∧
    enrichAndPrint true 20 ⟨80, 2⟩ exShape1 cm.reverse = enrichAndPrint true 20 ⟨80, 2⟩ exShape1 cm := by
  cases h : commentMap exShape1 with
  | error e =>
    have : (commentMap exShape1).isOk = true := by decide +kernel
    rw [h] at this
    cases this
  | ok cm =>
    refine ⟨cm, rfl, ?_, ?_, C32_map_order_irrelevant _ (by decide) _ _ h (List.reverse_perm cm).symm _ _ _⟩
    · have : (commentMap exShape1).map List.length = .ok 14 := by decide +kernel
      rw [h] at this
      exact Except.ok.inj this
    · have : (commentMap exShape1).map (fun c => decide (c.reverse = c)) = .ok false := by decide +kernel
      rw [h] at this
      simpa using Except.ok.inj this

end Afmt
