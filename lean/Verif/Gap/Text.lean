import Verif.Gap.Calls
import Verif.Trail.Text

/-!
# Trees whose printed texts are spaced
-/

namespace Afmt

namespace Gap
open Gram
open Afmt.Lines (All conf_all child_of fullKinds retext retext_skel retext_ids retext_closed retext_plain retext_conforms retext_children silent_of plain_all Silent)
open Afmt.Trail (Tr conf_tr find_field updates_all)

/-- No further requirements on texts. -/
local instance : Trail.Gate := Trail.Gate.loose

/-- The text is read from `a` to `e`. -/
def goes (t : Bool) (a : St) (s : Str) (e : St) : Bool := allSc.all (fun x => !a.mem x || (scan t x s).any e.mem)

/-- The text can be printed where it stands: `pk` is the kind of its parent, `field` and `kind` are its own.
* Operators are read after white space, and white space may follow them.
* What is inside of the braces of a `FIND` clause does not end a string literal.
* All other texts are read wherever a word may begin, and end where a word may end.
* The key and the value of an annotation may have an `=` without white space between them. -/
def fitsText (t : Bool) (pk : String) (field : Option String) (kind : String) (s : Str) : Bool :=
  (!(operKinds.contains kind || (pk == "assignment_expression" && field == some "operator")) || goes t .W s .R) &&
  (kind != "term" || scan t .I s == some .I) &&
  (!(wordKind kind || (field.isSome && field != some "operator") ||
    (field == some "operator" && pk != "assignment_expression" && pk != "binary_expression")) || goes t .X s .E) &&
  (!(pk == "annotation_key_value" && field == some "key") || goes t .X s .N) &&
  (!(t && pk == "annotation_key_value" && field == some "value") || goes t .T s .E)

/-- The next sibling that is no comment is a `,` or `;`. -/
def punctNext (r : List Node) : Bool := (r.find? (fun c => !c.extra)).any (fun c => isPunctuationKind c.kind)

/-- No operator is directly followed by `,` or `;`. -/
def opsApart (pk : String) : List Node → Bool
  | [] => true
  | c :: r => (!(operKinds.contains c.kind || (pk == "assignment_expression" && c.field == some "operator")) || !punctNext r) &&
    opsApart pk r

/-- Shapes that are needed: no operator is followed by `,` or `;`, a `;` is a token and no alternative of an `if`, a geolocation
function has an argument; key-value pairs of annotations only if a tight `=` is allowed. -/
def stout (t : Bool) (kind : String) (children : List Node) : Bool :=
  opsApart kind children && children.all (fun c => c.kind != ";" || (!c.named && c.field != some "alternative")) &&
  (kind != "function_expression" || !children.any (fun c => c.named && c.kind == "geo_location_type") ||
    children.any (fun c => c.named && (c.kind == "field_identifier" || c.kind == "bound_apex_expression"))) &&
  (t || kind != "annotation_key_value")

mutual
/-- Every node has children or a visible text, the printed texts fit where they stand, and the nodes have the shapes that
are needed. -/
def apartBy (t : Bool) (pk : String) (pf : Option String) : Node → Bool
  | .mk id kind named extra err field sr er sb eb text children =>
    (!children.isEmpty || !(ink text).isEmpty) &&
    (!(Node.mk id kind named extra err field sr er sb eb text children).shown pk pf || fitsText t pk field kind text) &&
    stout t kind children && apartsBy t kind field children
/-- Siblings. -/
def apartsBy (t : Bool) (pk : String) (pf : Option String) : List Node → Bool
  | [] => true
  | c :: cs => apartBy t pk pf c && apartsBy t pk pf cs
end

/-- The program, apart from the text of the whole file. -/
def apart (t : Bool) (root : Node) : Bool :=
  stout t "parser_output" root.children && apartsBy t "parser_output" none root.children

mutual
/-- Replace the texts that are not printed. -/
def hush (pk : String) (pf : Option String) : Node → Node
  | .mk id kind named extra err field sr er sb eb text children =>
    .mk id kind named extra err field sr er sb eb
      (if (Node.mk id kind named extra err field sr er sb eb text children).shown pk pf then text else ['x']) (hushs kind field children)
/-- Siblings. -/
def hushs (pk : String) (pf : Option String) : List Node → List Node
  | [] => []
  | n :: ns => hush pk pf n :: hushs pk pf ns
end

theorem hushs_eq (pk : String) (pf : Option String) (ns : List Node) : hushs pk pf ns = ns.map (hush pk pf) := by
  induction ns with
  | nil => rw [hushs, List.map_nil]
  | cons n ns ih => rw [hushs, ih, List.map_cons]

section
variable (pk : String) (pf : Option String)
theorem hush_named (n : Node) : (hush pk pf n).named = n.named := by cases n; rw [hush]
theorem hush_extra (n : Node) : (hush pk pf n).extra = n.extra := by cases n; rw [hush]
theorem hush_kind (n : Node) : (hush pk pf n).kind = n.kind := by cases n; rw [hush]
theorem hush_field (n : Node) : (hush pk pf n).field = n.field := by cases n; rw [hush]
theorem hush_startRow (n : Node) : (hush pk pf n).startRow = n.startRow := by cases n; rw [hush]
theorem hush_endRow (n : Node) : (hush pk pf n).endRow = n.endRow := by cases n; rw [hush]
theorem hush_startByte (n : Node) : (hush pk pf n).startByte = n.startByte := by cases n; rw [hush]
theorem hush_children (n : Node) : (hush pk pf n).children = n.children.map (hush n.kind n.field) := by cases n; rw [hush, hushs_eq]
theorem hush_code (n : Node) : (hush pk pf n).isCode = n.isCode := by
  rw [Node.isCode, hush_extra, hush_named, hush_kind, Node.isCode]
theorem hush_shown (qk : String) (qf : Option String) (n : Node) : (hush pk pf n).shown qk qf = n.shown qk qf := by
  unfold Node.shown
  rw [hush_extra, hush_kind, hush_field, hush_children, List.any_map]
  simp only [Function.comp_def, hush_named]

theorem hush_find {p : Node → Bool} (hp : ∀ n : Node, p (hush pk pf n) = p n) (ns : List Node) :
    (ns.map (hush pk pf)).find? p = (ns.find? p).map (hush pk pf) := by
  rw [List.find?_map]
  congr 1
  congr 1
  funext x
  exact hp x

theorem hush_around (checks body : Bool) (lefts : List Node) (n : Node) (rights : List Node) :
    around checks body (lefts.map (hush pk pf)) (hush pk pf n) (rights.map (hush pk pf)) = around checks body lefts n rights := by
  unfold around
  simp only [hush_find pk pf (hush_named pk pf), hush_find pk pf (hush_code pk pf), Option.map_map, hush_extra, hush_named]
  simp only [Function.comp_def, hush_startRow, hush_endRow]

theorem hush_opFirst (n : Node) : (hush pk pf n).operatorFirst = n.operatorFirst := by
  unfold Node.operatorFirst
  rw [hush_children]
  have p1 : ∀ (s : String) (m : Node), ((hush n.kind n.field m).field == some s) = (m.field == some s) := by
    intro s m; rw [hush_field]
  rw [hush_find _ _ (p1 "operator"), hush_find _ _ (p1 "operand")]
  cases n.children.find? (fun x => x.field == some "operator") with
  | none => rfl
  | some o =>
    cases n.children.find? (fun x => x.field == some "operand") with
    | none => rfl
    | some x => simp only [Option.map_some, hush_startByte]

theorem hush_associable (n : Node) : (hush pk pf n).associable = n.associable := by
  unfold Node.associable
  simp only [hush_extra, hush_named, hush_kind]
end

mutual
theorem hush_skel (checks : Bool) (pk : String) (pf : Option String) (body : Bool) (lefts rights : List Node) : ∀ n : Node,
    (hush pk pf n).skel checks pk pf body (lefts.map (hush pk pf)) (rights.map (hush pk pf)) = n.skel checks pk pf body lefts rights
  | .mk id kind named extra err field sr er sb eb text children => by
    have h1 := hush_around pk pf checks body lefts (.mk id kind named extra err field sr er sb eb text children) rights
    have h2 := hush_opFirst pk pf (.mk id kind named extra err field sr er sb eb text children)
    have h3 := hush_shown pk pf pk pf (.mk id kind named extra err field sr er sb eb text children)
    have h5 := hush_skels checks kind field (isBodyNode pk field kind) children []
    simp only [hush] at h1 h2 h3 ⊢
    rw [Node.skel, Node.skel]
    simp only [h1, h2, h3]
    have h6 : (if (Node.mk id kind named extra err field sr er sb eb text children).shown pk pf = true then
          some ((Node.mk id kind named extra err field sr er sb eb
            (if (Node.mk id kind named extra err field sr er sb eb text children).shown pk pf = true then text else ['x'])
            (hushs kind field children)).spelling pk pf) else none) =
        if (Node.mk id kind named extra err field sr er sb eb text children).shown pk pf = true then
          some ((Node.mk id kind named extra err field sr er sb eb text children).spelling pk pf) else none := by
      split
      · rw [Node.spelling, Node.spelling]
      · rfl
    rw [h6, hushs_eq]
    exact congrArg _ h5
theorem hush_skels (checks : Bool) (pk : String) (pf : Option String) (body : Bool) : ∀ ns lefts : List Node,
    skels checks pk pf body (lefts.map (hush pk pf)) (ns.map (hush pk pf)) = skels checks pk pf body lefts ns
  | [], _ => by rw [List.map_nil, skels, skels]
  | n :: ns, lefts => by
    rw [List.map_cons, skels, skels, hush_skel checks pk pf body lefts ns n]
    have := hush_skels checks pk pf body ns (n :: lefts)
    rw [List.map_cons] at this
    rw [this]
end

mutual
theorem hush_ids : ∀ (pk : String) (pf : Option String) (n : Node), (hush pk pf n).ids = n.ids
  | pk, pf, .mk id kind named extra err field sr er sb eb text children => by rw [hush, Node.ids, Node.ids, hushs_ids kind field children]
theorem hushs_ids : ∀ (pk : String) (pf : Option String) (ns : List Node), idsOf (hushs pk pf ns) = idsOf ns
  | _, _, [] => rfl
  | pk, pf, n :: ns => by rw [hushs, idsOf, idsOf, hush_ids pk pf n, hushs_ids pk pf ns]
end

mutual
theorem hush_plain : ∀ (pk : String) (pf : Option String) (n : Node), plain (hush pk pf n) = plain n
  | pk, pf, .mk id kind named extra err field sr er sb eb text children => by rw [hush, plain, plain, hushs_plain kind field children]
theorem hushs_plain : ∀ (pk : String) (pf : Option String) (ns : List Node), plains (hushs pk pf ns) = plains ns
  | _, _, [] => rfl
  | pk, pf, n :: ns => by rw [hushs, plains, plains, hush_plain pk pf n, hushs_plain pk pf ns]
end

mutual
theorem hush_closed : ∀ (pk : String) (pf : Option String) (n : Node), n.Closed → (hush pk pf n).Closed
  | pk, pf, .mk id kind named extra err field sr er sb eb text children, h => by
    rw [hush]; rw [Node.Closed] at h ⊢; exact hushs_closed kind field children h
theorem hushs_closed : ∀ (pk : String) (pf : Option String) (ns : List Node), kidsClosed ns → kidsClosed (hushs pk pf ns)
  | _, _, [], _ => trivial
  | pk, pf, n :: ns, h => by
    rw [hushs]; rw [kidsClosed] at h ⊢
    refine ⟨fun ha => ?_, hush_closed pk pf n h.2.1, hushs_closed pk pf ns h.2.2⟩
    rw [hush_associable] at ha
    rw [hush_children, h.1 ha, List.map_nil]
end

theorem All.hush {Q R : Node → Prop} (hqr : ∀ pk pf n, Q n → R (hush pk pf n)) {n : Node} (h : All Q n) :
    ∀ pk pf, All R (Gap.hush pk pf n) := by
  induction h with
  | mk h _ ih =>
    intro pk pf
    refine .mk (hqr _ _ _ h) (fun c hc => ?_)
    rw [hush_children] at hc
    obtain ⟨d, hd, rfl⟩ := List.mem_map.1 hc
    exact ih d hd _ _

/-- The nodes do not depend on the replaced texts. -/
theorem punctNext_hush (pk : String) (pf : Option String) (r : List Node) : punctNext (r.map (hush pk pf)) = punctNext r := by
  unfold punctNext
  rw [hush_find pk pf (fun n => by rw [hush_extra])]
  cases r.find? (fun c => !c.extra) with
  | none => rfl
  | some c => simp only [Option.map_some, Option.any_some, hush_kind]

theorem opsApart_hush (k pk : String) (pf : Option String) : ∀ r : List Node, opsApart k (r.map (hush pk pf)) = opsApart k r
  | [] => rfl
  | c :: r => by rw [List.map_cons, opsApart, opsApart, opsApart_hush k pk pf r, punctNext_hush, hush_kind, hush_field]

theorem stout_hush (t : Bool) (k pk : String) (pf : Option String) (r : List Node) : stout t k (r.map (hush pk pf)) = stout t k r := by
  unfold stout
  simp only [opsApart_hush, List.all_map, List.any_map, Function.comp_def, hush_kind, hush_named, hush_field]

/-- The text `x` fits everywhere. -/
theorem fits_x (t : Bool) (pk : String) (field : Option String) (kind : String) : fitsText t pk field kind ['x'] = true := by
  unfold fitsText
  have h1 : goes t .W ['x'] .R = true := by cases t <;> decide
  have h2 : (scan t .I ['x'] == some .I) = true := by cases t <;> decide
  have h3 : goes t .X ['x'] .E = true := by cases t <;> decide
  have h4 : goes t .X ['x'] .N = true := by cases t <;> decide
  rw [h1, h2, h3, h4]
  cases t with
  | false => simp
  | true => rw [show goes true .T ['x'] .E = true by decide]; simp

/-- The printed texts fit, the shapes are as needed. -/
structure Kin (t : Bool) (n : Node) : Prop where
  kids : ∀ c ∈ n.children, fitsText t n.kind c.field c.kind c.text = true
  shape : stout t n.kind n.children = true

mutual
theorem apart_kin (t : Bool) : ∀ (pk : String) (pf : Option String) (n : Node), apartBy t pk pf n = true →
    All (Kin t) (hush pk pf n) ∧ fitsText t pk n.field n.kind (hush pk pf n).text = true
  | pk, pf, .mk id kind named extra err field sr er sb eb text children, h => by
    simp only [apartBy, Bool.and_eq_true] at h
    have ih := aparts_kin t kind field children h.2
    refine ⟨.mk ⟨?_, ?_⟩ ?_, ?_⟩
    · intro c hc
      rw [hush_children] at hc
      obtain ⟨d, hd, rfl⟩ := List.mem_map.1 hc
      rw [hush_kind, hush_field, hush_kind]
      exact (ih d hd).2
    · rw [hush_children, stout_hush, hush_kind]
      exact h.1.2
    · intro c hc
      rw [hush_children] at hc
      obtain ⟨d, hd, rfl⟩ := List.mem_map.1 hc
      exact (ih d hd).1
    · rw [hush]
      simp only
      split
      · rename_i hs
        have := h.1.1.2
        rwa [hs, Bool.not_true, Bool.false_or] at this
      · exact fits_x _ _ _ _
theorem aparts_kin (t : Bool) : ∀ (pk : String) (pf : Option String) (ns : List Node), apartsBy t pk pf ns = true → ∀ c ∈ ns,
    All (Kin t) (hush pk pf c) ∧ fitsText t pk c.field c.kind (hush pk pf c).text = true
  | _, _, [], _, c, hc => by cases hc
  | pk, pf, n :: ns, h, c, hc => by
    rw [apartsBy, Bool.and_eq_true] at h
    rcases List.mem_cons.1 hc with e | hc
    · rw [e]; exact apart_kin t pk pf n h.1
    · exact aparts_kin t pk pf ns h.2 c hc
end

/-- What is needed of the nodes. -/
structure Fact (t : Bool) (n : Node) : Prop extends Tr n, Kin t n where
  full : fullKinds.contains n.kind = true → ∃ c ∈ n.children, c.named = true
  upd : n.kind = "for_statement" → ∃ c ∈ n.children, c.field = some "update"
  extra : n.extra = false

theorem search_none : ∀ rs : List Loc, punctNext (rs.map Loc.node) = false → Punc.search rs = none
  | [], _ => rfl
  | s :: ss, h => by
    rw [Punc.search]
    unfold punctNext at h
    rw [List.map_cons, List.find?_cons] at h
    by_cases he : s.extra = true
    · rw [if_pos he]
      have : s.node.extra = true := he
      rw [this] at h
      exact search_none ss h
    · have : s.node.extra = false := by simpa [Loc.extra] using he
      rw [this] at h
      rw [if_neg he, if_neg]
      simpa [Loc.kind] using h

theorem ops_right (k : String) (p : Loc) : ∀ (rest lefts : List Node), opsApart k rest = true → ∀ x ∈ Loc.childrenGo p lefts rest,
    (operKinds.contains x.node.kind || (k == "assignment_expression" && x.node.field == some "operator")) = true → Punc.from x = none
  | [], _, _, x, hx, _ => by rw [Loc.childrenGo] at hx; cases hx
  | c :: r, lefts, h, x, hx, ho => by
    rw [opsApart, Bool.and_eq_true] at h
    rw [Loc.childrenGo] at hx
    rcases List.mem_cons.1 hx with e | hx
    · subst e
      refine search_none _ ?_
      rw [right_nodes]
      have h1 := h.1
      simp only [ho, Bool.not_true, Bool.false_or, Bool.not_eq_true'] at h1
      exact h1
    · exact ops_right k p r _ h.2 x hx ho

mutual
theorem apart_ink (t : Bool) : ∀ (pk : String) (pf : Option String) (n : Node), apartBy t pk pf n = true →
    All (fun x => x.children ≠ [] ∨ ink x.text ≠ []) n
  | pk, pf, .mk id kind named extra err field sr er sb eb text children, h => by
    simp only [apartBy, Bool.and_eq_true] at h
    refine .mk ?_ (aparts_ink t kind field children h.2)
    have := h.1.1.1
    rw [Bool.or_eq_true] at this
    exact this.imp (by simp) (by simp)
theorem aparts_ink (t : Bool) : ∀ (pk : String) (pf : Option String) (ns : List Node), apartsBy t pk pf ns = true → ∀ c ∈ ns,
    All (fun x => x.children ≠ [] ∨ ink x.text ≠ []) c
  | _, _, [], _, c, hc => by cases hc
  | pk, pf, n :: ns, h, c, hc => by
    rw [apartsBy, Bool.and_eq_true] at h
    rcases List.mem_cons.1 hc with e | hc
    · rw [e]; exact apart_ink t pk pf n h.1
    · exact aparts_ink t pk pf ns h.2 c hc
end

variable [Mode]

theorem goes_iff {a e : St} {s : Str} (h : goes Mode.tight a s e = true) : Goes a s e := by
  intro x hx
  have := List.all_eq_true.1 h x (mem_all x)
  rw [hx] at this
  exact any_get (o := scan Mode.tight x s) (p := e.mem) this

theorem gapTree_of {root : Node} (h : All (Fact Mode.tight) root) (hr : fitsText Mode.tight "" none root.kind root.text = true)
    (hf : root.field = none) (hk : root.kind = "parser_output") : GapTree root := by
  have kid : ∀ {l x : Loc}, In root l → x ∈ l.children → fitsText Mode.tight l.kind x.node.field x.kind x.value = true :=
    fun hl hx => (h.at hl).here.kids _ (All.at.mem_children_node hx)
  have mem : ∀ {l x : Loc} {f : String}, l.tryCByN f = some x → x ∈ l.children ∧ x.node.field = some f := by
    intro l x f hx
    exact ⟨List.mem_of_find?_eq_some hx, by simpa using List.find?_some hx⟩
  have self : ∀ {l : Loc}, In root l → ∃ pk, fitsText Mode.tight pk l.node.field l.kind l.value = true := by
    intro l hl
    cases hl with
    | root => exact ⟨"", by rw [hf]; exact hr⟩
    | child hp hx => exact ⟨_, kid hp hx⟩
  have vec : ∀ {l x : Loc}, In root l → x ∈ l.children → x.node.named = true → x ∈ l.childrenVec := by
    intro l x hl hx hn
    have he := ((h.at hl).kid (All.at.mem_children_node hx)).here.extra
    unfold Loc.childrenVec Loc.namedChildren
    rw [List.mem_filter, List.mem_filter]
    exact ⟨⟨hx, hn⟩, by simp [Loc.extra, he]⟩
  have byK : ∀ {l : Loc} {k : String}, (∃ c ∈ l.node.children, c.named = true ∧ c.kind = k) → l.tryCByK k ≠ none := by
    rintro l k ⟨c, hc, hn, hkd⟩
    obtain ⟨x, hxl, rfl⟩ := child_of hc
    unfold Loc.tryCByK Loc.namedChildren
    intro h0
    rw [List.find?_eq_none] at h0
    exact h0 x (List.mem_filter.2 ⟨hxl, hn⟩) (by simp [Loc.kind, hkd])
  have shape : ∀ {l : Loc}, In root l → _ := fun {l} hl => (h.at hl).here.shape
  have ops : ∀ {l x : Loc}, In root l → x ∈ l.children →
      (operKinds.contains x.node.kind || (l.kind == "assignment_expression" && x.node.field == some "operator")) = true → Punc.from x = none := by
    intro l x hl hx ho
    have h1 := shape hl
    simp only [stout, Bool.and_eq_true] at h1
    exact ops_right _ _ _ _ h1.1.1.1 x hx ho
  have operB : ∀ {pk : String} {fd : Option String} {k : String} {s : Str}, fitsText Mode.tight pk fd k s = true →
      (operKinds.contains k || (pk == "assignment_expression" && fd == some "operator")) = true → Oper s := by
    intro pk fd k s h1 h2
    unfold Oper
    simp only [fitsText, Bool.and_eq_true, h2, Bool.not_true, Bool.false_or] at h1
    exact goes_iff h1.1.1.1.1
  have wordB : ∀ {pk : String} {fd : Option String} {k : String} {s : Str}, fitsText Mode.tight pk fd k s = true →
      (wordKind k || (fd.isSome && fd != some "operator") ||
        (fd == some "operator" && pk != "assignment_expression" && pk != "binary_expression")) = true → Wordy s := by
    intro pk fd k s h1 h2
    unfold Wordy
    simp only [fitsText, Bool.and_eq_true] at h1
    have h3 := h1.1.1.2
    rw [h2, Bool.not_true, Bool.false_or] at h3
    exact goes_iff h3
  constructor
  case word =>
    intro l hl hw
    obtain ⟨pk, h1⟩ := self hl
    exact wordB h1 (by rw [hw]; rfl)
  case named =>
    intro l x f hl hx hne
    obtain ⟨hm, hfd⟩ := mem hx
    refine wordB (kid hl hm) ?_
    simp [hfd, hne]
  case mark =>
    intro l x hl h1 h2 hx
    obtain ⟨hm, hfd⟩ := mem hx
    refine wordB (kid hl hm) ?_
    simp [hfd, h1, h2]
  case oper =>
    intro l hl ho
    obtain ⟨pk, h1⟩ := self hl
    refine ⟨operB h1 (by rw [ho]; rfl), ?_⟩
    cases hl with
    | root => rw [show Loc.kind ⟨root, []⟩ = root.kind from rfl, hk] at ho; exact absurd ho (by decide)
    | child hp hx => exact ops hp hx (by rw [Bool.or_eq_true]; exact .inl ho)
  case assign =>
    intro l x hl h1 hx
    obtain ⟨hm, hfd⟩ := mem hx
    have h2 : (operKinds.contains x.node.kind || (l.kind == "assignment_expression" && x.node.field == some "operator")) = true := by
      simp [h1, hfd]
    exact ⟨operB (kid hl hm) h2, ops hl hm h2⟩
  case term =>
    intro l hl ht
    obtain ⟨pk, h1⟩ := self hl
    simp only [fitsText, Bool.and_eq_true] at h1
    have h2 := h1.1.1.1.2
    unfold Quotable
    simpa [ht] using h2
  case anno =>
    intro l hl ha
    have h1 := shape hl
    simp only [stout, Bool.and_eq_true] at h1
    have ha' : l.node.kind = "annotation_key_value" := ha
    have ht : Mode.tight = true := by simpa [ha'] using h1.2
    refine ⟨ht, fun x hx => ?_, fun x hx => ?_⟩
    · obtain ⟨hm, hfd⟩ := mem hx
      have h2 := kid hl hm
      simp only [fitsText, Bool.and_eq_true] at h2
      have h3 := h2.1.2
      refine goes_iff ?_
      simpa [ha, hfd] using h3
    · obtain ⟨hm, hfd⟩ := mem hx
      have h2 := kid hl hm
      simp only [fitsText, Bool.and_eq_true] at h2
      have h3 := h2.2
      refine goes_iff ?_
      simpa [ha, hfd, ht] using h3
  case alt =>
    intro l x hl hx hs
    obtain ⟨hm, hfd⟩ := mem hx
    have h1 := shape hl
    simp only [stout, Bool.and_eq_true, List.all_eq_true] at h1
    have h2 := h1.1.1.2 _ (All.at.mem_children_node hm)
    have hs' : x.node.kind = ";" := hs
    simp [hs', hfd] at h2
  case geo =>
    intro l hl hk hg
    have h1 := shape hl
    simp only [stout, Bool.and_eq_true] at h1
    have h2 := h1.1.2
    have hk' : l.node.kind = "function_expression" := hk
    have h3 : l.node.children.any (fun c => c.named && c.kind == "geo_location_type") = true := by
      cases hx : l.tryCByK "geo_location_type" with
      | none => exact absurd hx hg
      | some x =>
        have h4 := List.mem_of_find?_eq_some hx
        have h5 := List.find?_some hx
        rw [List.any_eq_true]
        refine ⟨x.node, All.at.mem_children_node (List.mem_filter.1 h4).1, ?_⟩
        have h6 := (List.mem_filter.1 h4).2
        have h7 : x.node.named = true := h6
        have h8 : (x.node.kind == "geo_location_type") = true := h5
        rw [h7, h8]; rfl
    rw [h3, hk'] at h2
    simp only [bne_self_eq_false, Bool.not_true, Bool.false_or, List.any_eq_true, Bool.and_eq_true, Bool.or_eq_true, beq_iff_eq] at h2
    obtain ⟨c, hc, hn, hd | hd⟩ := h2
    · exact .inl (byK ⟨c, hc, hn, hd⟩)
    · exact .inr (byK ⟨c, hc, hn, hd⟩)
  case semi =>
    intro l x hl hx hs
    have h1 := shape hl
    simp only [stout, Bool.and_eq_true, List.all_eq_true] at h1
    have hm := (List.mem_filter.1 (List.mem_filter.1 hx).1)
    have h2 := h1.1.1.2 _ (All.at.mem_children_node hm.1)
    have hs' : x.node.kind = ";" := hs
    have hn : x.node.named = true := hm.2
    simp [hs', hn] at h2
  case full =>
    intro l hl hk
    obtain ⟨c, hc, hn⟩ := (h.at hl).here.full hk
    obtain ⟨x, hxl, rfl⟩ := child_of hc
    exact List.ne_nil_of_mem (vec hl hxl hn)
  case upd => exact fun l hl hk => find_field ((h.at hl).here.upd hk)
  case grp =>
    intro l hl hk
    obtain ⟨c, hc, hn, hkd⟩ := (h.at hl).here.grp hk
    obtain ⟨x, hxl, rfl⟩ := child_of hc
    refine List.ne_nil_of_mem (List.mem_filter.2 ⟨vec hl hxl hn, ?_⟩)
    simpa [Loc.kind] using hkd
  case asg =>
    intro l hl hk hv
    obtain ⟨c, hc, hn, hkd⟩ := (h.at hl).here.asg hk (by
      cases hx : l.tryCByN "value" with
      | none => exact absurd hx hv
      | some x =>
        exact ⟨x.node, All.at.mem_children_node (List.mem_of_find?_eq_some hx), by simpa using List.find?_some hx⟩)
    exact byK ⟨c, hc, hn, hkd⟩
  case look => exact fun l hl => (h.at hl).here.look

omit [Mode] in
theorem Tr.hush {n : Node} (pk : String) (pf : Option String) (h : Tr n) : Tr (Gap.hush pk pf n) := by
  obtain ⟨h1, h2, h3⟩ := h
  refine ⟨fun hk => ?_, fun hk ⟨c, hc, hf⟩ => ?_, ?_⟩
  · rw [hush_kind] at hk
    obtain ⟨c, hc, hn, hkd⟩ := h1 hk
    exact ⟨Gap.hush _ _ c, by rw [hush_children]; exact List.mem_map_of_mem hc, by rw [hush_named, hn], by rw [hush_kind]; exact hkd⟩
  · rw [hush_kind] at hk
    rw [hush_children] at hc
    obtain ⟨d, hd, rfl⟩ := List.mem_map.1 hc
    rw [hush_field] at hf
    obtain ⟨c, hc, hn, hkd⟩ := h2 hk ⟨d, hd, hf⟩
    exact ⟨Gap.hush _ _ c, by rw [hush_children]; exact List.mem_map_of_mem hc, by rw [hush_named, hn], by rw [hush_kind]; exact hkd⟩
  · rwa [hush_kind]

omit [Mode] in
theorem facts {t : Bool} {root : Node} (h1 : All Tr root) (h3 : All Lines.Frame root)
    (h4 : All (fun x => x.kind = "for_statement" → ∃ c ∈ x.children, c.field = some "update") root)
    (h5 : All (fun x => x.extra = false) root) (pk : String) (pf : Option String) (h6 : All (Kin t) (hush pk pf root)) :
    All (Fact t) (hush pk pf root) := by
  have h7 : All (fun n => Tr n ∧ (fullKinds.contains n.kind = true → ∃ c ∈ n.children, c.named = true) ∧
      (n.kind = "for_statement" → ∃ c ∈ n.children, c.field = some "update") ∧ n.extra = false) (hush pk pf root) := by
    refine All.hush (fun pk pf n hn => ?_) (Trail.All.and h1 (Trail.All.and h3 (Trail.All.and h4 h5))) pk pf
    obtain ⟨g1, g3, g4, g5⟩ := hn
    refine ⟨Tr.hush pk pf g1, fun h => ?_, fun h => ?_, ?_⟩
    · rw [hush_kind] at h
      obtain ⟨c, hc, hn⟩ := g3.full h
      exact ⟨hush _ _ c, by rw [hush_children]; exact List.mem_map_of_mem hc, by rw [hush_named, hn]⟩
    · rw [hush_kind] at h
      obtain ⟨c, hc, hn⟩ := g4 h
      exact ⟨hush _ _ c, by rw [hush_children]; exact List.mem_map_of_mem hc, by rw [hush_field, hn]⟩
    · rwa [hush_extra]
  refine (Trail.All.and h7 h6).imp (fun n hn => ?_)
  obtain ⟨⟨g1, g2, g3, g4⟩, g5⟩ := hn
  exact { g1 with kids := g5.kids, shape := g5.shape, full := g2, upd := g3, extra := g4 }

/-- A tree whose printed texts fit, with another text for the whole file and for the texts that are not printed. -/
theorem hush_tree {root : Node} (checks : Bool) (hf : root.field = none) (hc : conforms root = true) (hx : plain root = true)
    (ht : apart Mode.tight root = true) (hu : updates root = true) :
    GapTree (hush "" none (retext ['x'] root)) ∧
    skeleton checks (hush "" none (retext ['x'] root)) = skeleton checks (retext ['x'] root) := by
  obtain ⟨hk, hnm, hex, hcf⟩ := conforms_root hc
  have hk1 : (retext ['x'] root).kind = "parser_output" := by cases root; exact hk
  have hf1 : (retext ['x'] root).field = none := by cases root; exact hf
  have hx1 := retext_plain ['x'] hx
  have hap : apartBy Mode.tight "" none (retext ['x'] root) = true := by
    cases root with
    | mk id kind named extra err field sr er sb eb text children =>
      simp only at hk hf hex ht
      subst hk hf hex
      simp only [apart, Bool.and_eq_true] at ht
      simp only [retext, apartBy, ht.1, ht.2, fits_x, show (ink ['x']).isEmpty = false from rfl, Bool.not_false, Bool.or_true, Bool.and_true]
  have hkin := apart_kin Mode.tight "" none _ hap
  have hfr : All Lines.Frame (retext ['x'] root) := by
    by_cases hne : root.children = []
    · refine .mk ⟨fun h => ?_, fun h => ?_, fun h => ?_, fun _ => ?_⟩ (fun c hc => ?_)
      · rw [hk1] at h; exact absurd h (by decide)
      · rw [hk1] at h; exact absurd h (by decide)
      · rw [hk1] at h; exact absurd h (by decide)
      · rw [retext_children, hne]; exact ⟨[], [], [], rfl, nofun, nofun, nofun⟩
      · rw [retext_children, hne] at hc; cases hc
    · obtain ⟨-, -, -, hcf1⟩ := conforms_root (retext_conforms ['x'] hc hne)
      exact conf_all _ _ hcf1 hx1 (apart_ink _ _ _ _ hap)
  have htr : All Tr (retext ['x'] root) := by
    have := conf_tr root _ hcf
    refine .mk ⟨fun h => ?_, fun h => ?_, ?_⟩ (fun c hc => this.kid (by rwa [retext_children] at hc))
    · rw [hk1] at h; exact absurd h (by decide)
    · rw [hk1] at h; exact absurd h (by decide)
    · rw [hk1]; decide
  have hup : All (fun x => x.kind = "for_statement" → ∃ c ∈ x.children, c.field = some "update") (retext ['x'] root) := by
    refine .mk (fun h => ?_) (fun c hc => (updates_all root hu).kid (by rwa [retext_children] at hc))
    rw [hk1] at h; exact absurd h (by decide)
  have hall := facts htr hfr hup (plain_all _ hx1) "" none hkin.1
  have hsk : skeleton checks (hush "" none (retext ['x'] root)) = skeleton checks (retext ['x'] root) := by
    have := hush_skel checks "" none false [] [] (retext ['x'] root)
    rwa [List.map_nil] at this
  refine ⟨gapTree_of hall ?_ (by rw [hush_field, hf1]) (by rw [hush_kind, hk1]), hsk⟩
  have := hkin.2
  rw [hf1] at this
  rw [hush_kind]
  exact this

/-- The blanks of the formatted text are where they should be. -/
theorem format_spaced {checks : Bool} {depth : Nat} {cfg : Config} {root : Node} {out : Str} (hcl : root.Closed)
    (hi : root.ids.Nodup) (hf : root.field = none) (hc : conforms root = true) (hx : plain root = true)
    (ht : apart Mode.tight root = true) (hu : updates root = true)
    (h : formatTree checks depth cfg root = .ok out) : spaced Mode.tight out = true := by
  obtain ⟨hk, hnm, hex, hcf⟩ := conforms_root hc
  obtain ⟨htt, hsk⟩ := hush_tree checks hf hc hx ht hu
  have hi1 : (retext ['x'] root).ids.Nodup := by rw [retext_ids]; exact hi
  have h1 := (C50_only_the_skeleton_matters _ _ checks (retext_skel ['x'] hk hex hf) hi1 hi depth cfg out).2 h
  have hn1 : (retext ['x'] root).named = true := by cases root; exact hnm
  have he1 : (retext ['x'] root).extra = false := by cases root; exact hex
  have hx1 := retext_plain ['x'] hx
  have h2 := (C50_only_the_skeleton_matters _ _ checks hsk (by rw [hush_ids]; exact hi1) hi1 depth cfg out).2 h1
  obtain ⟨cm, p, is, log, d, hcm, hn, -, -, hb, -, -, rfl⟩ := formatTree_content h2
  have hnil := (C14_every_comment_attached_once _ (hush_closed _ _ _ (retext_closed ['x'] hcl)) (by rw [hush_named, hn1])
    (by rw [hush_extra, he1])).2 cm hcm
  rw [plain_extras _ (by rw [hush_plain]; exact hx1)] at hnil
  have hsil := silent_of (show cm.all = [] by simpa using hnil)
  exact layout_spaced hsil hb _ (root_run htt hn)

end Gap
end Afmt
