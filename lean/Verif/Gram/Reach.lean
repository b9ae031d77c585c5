import Verif.Gram.Ctx

/-!
# Locations of a sane tree: buckets, punctuation
-/

namespace Afmt.Gram
open Prog

/-- The tree and its comment map. -/
structure Good (root : Node) (cm : CMap) : Prop where
  kind : root.kind = "parser_output"
  named : root.named = true
  noExtra : root.extra = false
  closed : root.Closed
  nodup : (ids root).Nodup
  map : commentMap root = .ok cm

/-- Locations reached from the root through sane nodes. -/
inductive Reach (root : Node) : Loc → Prop
  | root : Reach root (.ofRoot root)
  | kid {l x : Loc} : Reach root l → sane l.kind l.node.children = true → x ∈ l.children → x.node.associable = true →
      Reach root x

/-- There is no comment among the children, or one that a comment can be attached to. -/
def Calm (n : Node) : Prop := (∀ c ∈ n.children, c.extra = false) ∨ ∃ c ∈ n.children, c.associable = true

theorem associable_kid {l x : Loc} (_ : x ∈ l.children) : x.node.associable = true → x.node.extra = false := by
  intro h
  simp only [Node.associable, Bool.and_eq_true, Bool.not_eq_true'] at h
  exact h.1

section
variable {root : Node} {cm : CMap} (g : Good root cm)
include g

theorem Reach.code {l : Loc} (h : Reach root l) : l.node ∈ root.codeNodes := by
  induction h with
  | root => exact mem_codeNodes_self root
  | kid _ _ hx ha ih => exact code_trans root _ _ ih (mem_children_node hx) ha

theorem Reach.assoc {l : Loc} (h : Reach root l) : l.node.associable = true := by
  cases h with
  | root => simp [Node.associable, Loc.ofRoot, g.named, g.noExtra]
  | kid _ _ _ ha => exact ha

theorem Reach.bucket {l : Loc} (h : Reach root l) : ∃ b, getBucket cm l.id = .ok b ∧ cm.get? l.id = some b := by
  obtain ⟨b, hb⟩ := ((C15_every_code_node_has_bucket root g.named g.noExtra cm g.map l.id).1).2 ⟨_, h.code g, rfl⟩
  exact ⟨b, by simp [getBucket, hb], hb⟩

theorem Reach.owner {l : Loc} (_ : Reach root l) {x : Slot} (hx : cm.slot x ≠ []) :
    ∃ o ∈ root.extras, o.owner = x := by
  have hp := C14_owner root g.closed g.named g.noExtra cm g.map x
  cases hf : root.extras.filter (fun o => o.owner == x) with
  | nil => rw [hf] at hp; exact absurd (by simpa using hp) hx
  | cons o os =>
    have : o ∈ root.extras.filter (fun o => o.owner == x) := by rw [hf]; simp
    simp only [List.mem_filter, beq_iff_eq] at this
    exact ⟨o, this⟩

/-- No comment stands alone inside a calm node. -/
theorem Reach.calm {l : Loc} (h : Reach root l) (hc : Calm l.node) {b : Bucket} (hb : getBucket cm l.id = .ok b) :
    b.dangling = [] := by
  have hs : cm.slot (.dangling l.id) = b.dangling := by
    unfold getBucket at hb
    split at hb
    · rename_i e; cases hb; simp [CMap.slot, e]
    · cases hb
  cases hd : b.dangling with
  | nil => rfl
  | cons c cs =>
    exfalso
    obtain ⟨o, ho, how⟩ := h.owner g (x := .dangling l.id) (by rw [hs, hd]; simp)
    rcases C14_owner_is_near o with ⟨h1, h2⟩ | ⟨s, _, _, h1⟩ | ⟨s, _, _, h1⟩
    · obtain ⟨m, hm, hid, hch, hex⟩ := extras_parent root g.closed o ho
      have : m = l.node := by
        refine code_inj g.nodup hm (h.code g) ?_
        rw [hid]; rw [h1] at how; exact Slot.dangling.inj how
      subst this
      rcases hc with hc | ⟨c, hc, hca⟩
      · have := hc o.node (by rw [hch]; simp)
        rw [this] at hex; cases hex
      · rw [hch] at hc
        simp only [List.mem_append, List.mem_reverse, List.mem_cons] at hc
        rcases hc with hc | hc | hc
        · rw [h2 c (by simp [hc])] at hca; cases hca
        · subst hc; simp [Node.associable, hex] at hca
        · rw [h2 c (by simp [hc])] at hca; cases hca
    · rw [h1] at how; cases how
    · rw [h1] at how; cases how

/-- A node whose parent has no comments among its children has no comments before or after it. -/
theorem Reach.alone {l x : Loc} (hl : Reach root l) (hs : sane l.kind l.node.children = true) (hx : x ∈ l.children)
    (ha : x.node.associable = true) (hc : Calm x.node) (hno : ∀ c ∈ l.node.children, c.extra = false) :
    bag cm x.id = [] := by
  have hr : Reach root x := .kid hl hs hx ha
  obtain ⟨b, hb, hbc⟩ := hr.bucket g
  rw [bag, hbc]
  have hd := hr.calm g hc hb
  have key : ∀ sl, (sl = .pre x.id ∨ sl = .post x.id) → cm.slot sl = [] := by
    intro sl hsl
    cases e : cm.slot sl with
    | nil => rfl
    | cons c cs =>
      exfalso
      obtain ⟨o, ho, how⟩ := hl.owner g (x := sl) (by rw [e]; simp)
      obtain ⟨s, hso, hsa, hsid⟩ := owner_assoc o x.id (by rw [how]; exact hsl)
      obtain ⟨m, hm, hid, hch, hex⟩ := extras_parent root g.closed o ho
      have hsm : s ∈ m.children := by
        rw [hch]; simp only [List.mem_append, List.mem_reverse, List.mem_cons] at hso ⊢
        rcases hso with h | h
        · exact Or.inl h
        · exact Or.inr (Or.inr h)
      have hpid : m.id = l.node.id :=
        parent_unique root g.nodup hm (hl.code g) hsm hsa (mem_children_node hx) ha hsid
      have := code_inj g.nodup hm (hl.code g) hpid
      subst this
      have := hno o.node (by rw [hch]; simp)
      rw [this] at hex; cases hex
  have h1 := key (.pre x.id) (Or.inl rfl)
  have h2 := key (.post x.id) (Or.inr rfl)
  unfold getBucket at hb
  split at hb
  · rename_i b' e
    cases hb
    simp only [CMap.slot, e, Option.map_some, Option.getD_some] at h1 h2
    simp [Bucket.all, h1, h2, hd]
  · cases hb

end

/-! ### What sanity says -/

theorem isPunct_eq (k : String) : isPunctuationKind k = (k == "," || k == ";") := rfl

theorem punct_assoc {n : Node} (h : isPunctuationKind n.kind = true) (he : n.extra = false) : n.associable = true := by
  simp [Node.associable, he, isAssociableUnnamedKind, h]

theorem sane_extras {k : String} {ns : List Node} (h : sane k ns = true) :
    ∀ c ∈ ns, c.extra = true → c.field = none ∧ (c.kind = "line_comment" ∨ c.kind = "block_comment") := by
  intro c hc he
  simp only [sane, Bool.and_eq_true, List.all_eq_true] at h
  have := h.1.1.1.1.1 c hc
  have h2 : (c.field = none ∧ c.children = []) ∧ (c.kind = "line_comment" ∨ c.kind = "block_comment") := by simpa [he] using this
  exact ⟨h2.1.1, h2.2⟩

theorem sane_leaf {k : String} {ns : List Node} (h : sane k ns = true) : ∀ c ∈ ns, c.extra = true → c.children = [] := by
  intro c hc he
  simp only [sane, Bool.and_eq_true, List.all_eq_true] at h
  have := h.1.1.1.1.1 c hc
  have h2 : (c.field = none ∧ c.children = []) ∧ (c.kind = "line_comment" ∨ c.kind = "block_comment") := by simpa [he] using this
  exact h2.1.2

theorem sane_calm {k : String} {ns : List Node} (h : sane k ns = true) (hb : braceKinds.contains k = false) :
    (∀ c ∈ ns, c.extra = false) ∨ ∃ c ∈ ns, c.associable = true := by
  simp only [sane, Bool.and_eq_true] at h
  have h2 := h.1.1.1.1.2
  rw [hb, Bool.or_false, Bool.or_eq_true] at h2
  rcases h2 with h2 | h2
  · left
    simp only [List.all_eq_true] at h2
    intro c hc; simpa using h2 c hc
  · right
    simp only [List.any_eq_true, List.mem_filter] at h2
    obtain ⟨c, ⟨hc, he⟩, hk⟩ := h2
    refine ⟨c, hc, ?_⟩
    simp only [Node.associable, isAssociableUnnamedKind, isPunctuationKind, he, Bool.true_and]
    simpa [Bool.or_assoc] using hk

theorem sane_punct {k : String} {ns : List Node} (h : sane k ns = true) :
    ∀ c ∈ ns, c.extra = false → isPunctuationKind c.kind = true → c.named = false ∧ tokenText c = true := by
  intro c hc he hp
  simp only [sane, Bool.and_eq_true, List.all_eq_true] at h
  have := h.1.1.2 c (by simp [List.mem_filter, hc, he])
  rw [isPunct_eq] at hp
  simpa [hp] using this

theorem sane_operator {ns : List Node} (h : sane "binary_expression" ns = true) :
    (∃ c ∈ ns, c.extra = false ∧ c.field = some "operator") ∧
    ∀ c ∈ ns, c.extra = false → c.field = some "operator" → c.kind ∈ binaryOps := by
  simp only [sane, Bool.and_eq_true] at h
  have := h.1.2
  simp only [bne_self_eq_false, Bool.false_or, Bool.and_eq_true, List.any_eq_true, List.all_eq_true] at this
  obtain ⟨⟨c, hc, hcf⟩, h2⟩ := this
  simp only [List.mem_filter] at hc
  refine ⟨⟨c, hc.1, by simpa using hc.2, by simpa using hcf⟩, ?_⟩
  intro c hc he hf
  have := h2 c (by simp [List.mem_filter, hc, he])
  simpa [hf] using this

theorem sane_with {k : String} {ns : List Node} (h : sane k ns = true) {x : Node} (hx : x ∈ ns) (he : x.extra = false)
    (hk : x.kind = "with_type") : ∀ c ∈ ns, c.extra = false := by
  intro c hc
  simp only [sane, Bool.and_eq_true] at h
  have := h.2
  simp only [Bool.or_eq_true, List.all_eq_true] at this
  rcases this with h1 | h1
  · have := h1 x (by simp [hx, he])
    simp [hk] at this
  · simpa using h1 c hc

theorem orderly_quiet : ∀ {a b : List Node} {x y : Node}, orderly (a ++ x :: y :: b) = true → Node.quiet x = true →
    isPunctuationKind y.kind = false
  | [], b, x, y, h, hq => by
    simp only [List.nil_append, orderly, Bool.and_eq_true, Bool.not_eq_true'] at h
    have h1 := h.1.1
    rw [hq, Bool.true_and] at h1
    exact h1
  | [z], b, x, y, h, hq => by
    simp only [List.cons_append, List.nil_append] at h
    rw [orderly] at h
    simp only [Bool.and_eq_true] at h
    exact orderly_quiet (a := []) h.2 hq
  | z :: z' :: a, b, x, y, h, hq => by
    simp only [List.cons_append] at h
    rw [orderly] at h
    simp only [Bool.and_eq_true] at h
    exact orderly_quiet (a := z' :: a) (by simpa using h.2) hq

theorem nexts_split {l : Loc} : ∀ {vs : List Loc}, Nexts vs → ∀ {x : Loc}, x ∈ vs → ∃ a, vs = a ++ x :: nexts x
  | [], _, x, hx => by cases hx
  | v :: vs, h, x, hx => by
    rcases List.mem_cons.1 hx with rfl | hx
    · exact ⟨[], by rw [h.1]; rfl⟩
    · obtain ⟨a, e⟩ := nexts_split (l := l) h.2 hx
      exact ⟨v :: a, by simpa using e⟩

theorem nexts_mem {l x s : Loc} (hx : x ∈ l.children) (hs : s ∈ nexts x) : s ∈ view l := by
  simp only [nexts, List.mem_filter] at hs
  rw [mem_view]
  exact ⟨children_right hx hs.1, by simpa [Loc.extra] using hs.2⟩

theorem sane_orderly {k : String} {ns : List Node} (h : sane k ns = true) :
    orderly (ns.filter (fun n => !n.extra)) = true := by
  simp only [sane, Bool.and_eq_true] at h
  exact h.1.1.1.2

/-- Nothing but a bracket, a named node or a keyword follows a node of a quiet kind. -/
theorem pcont_quiet (cm : CMap) {l x : Loc} (hs : sane l.kind l.node.children = true) (hx : x ∈ view l)
    (hq : Node.quiet x.node = true) : pcont cm x = [] := by
  have hx' := mem_view.1 hx
  obtain ⟨a, e⟩ := nexts_split (l := l) (view_nexts l) hx
  unfold pcont
  cases hn : nexts x with
  | nil => rfl
  | cons y b =>
    simp only
    rw [hn] at e
    have ho := sane_orderly hs
    rw [← view_map, e, List.map_append, List.map_cons, List.map_cons] at ho
    have := orderly_quiet ho hq
    rw [show isPunctuationKind y.kind = false from this]
    rfl

theorem Reach.quietNode {root : Node} (cm : CMap) {l : Loc} (h : Reach root l) (hq : Node.quiet l.node = true) :
    pcont cm l = [] := by
  cases h with
  | root => rfl
  | kid _ hs hx ha => exact pcont_quiet cm hs (mem_view.2 ⟨hx, associable_kid hx ha⟩) hq

theorem Reach.quiet {root : Node} (cm : CMap) {l : Loc} (h : Reach root l) (hq : quietKinds.contains l.kind = true) :
    pcont cm l = [] :=
  h.quietNode cm (by rw [Node.quiet, show l.node.kind = l.kind from rfl, hq, Bool.true_or])

/-! ### Printing of buckets -/

section
variable {cm : CMap}

theorem sx_pre {id : Nat} {b : Bucket} (hb : getBucket cm id = .ok b) :
    items cm (.pre id) = .ok ((commentItems b.pre).map .inl, b.pre) := by rw [items, hb]
theorem sx_post {id : Nat} {b : Bucket} (hb : getBucket cm id = .ok b) :
    items cm (.post id) = .ok ((commentItems b.post).map .inl, b.post) := by rw [items, hb]
theorem items_calm {id : Nat} {b : Bucket} (hb : getBucket cm id = .ok b) (hd : b.dangling = []) (p q : Prog) :
    items cm (.ifDangling id p q) = items cm q := by rw [items, hb]; simp [hd]

theorem sx_comments (h : Hold) (cs log : List Comment) : Sx (.ok ((commentItems cs).map .inl, log)) (comC h cs) :=
  sx_exact (by simpa using SameX.com h cs)

theorem within_perm {α : Type} {l m : List α} (h : l.Perm m) : Within l m := ⟨[], by simpa using h.symm⟩

theorem SameX.txt {w : Str} {k : List (Bool × Letter)} (h : SameL (letters false w) k) :
    SameX ((letters false w).map (fun x => .inl (.c x))) (inlC k) := by
  have := SameX.code (SameC.lift h)
  rw [List.map_map] at this
  exact this

/-- What `,` or `;` after a node prints. -/
theorem sx_punct {s : Loc} {b : Bucket} (hb : getBucket cm s.id = .ok b)
    (hbc : cm.get? s.id = some b) (hn : s.node.named = false) (he : s.node.extra = false)
    (ht : tokenText s.node = true) (hp : isPunctuationKind s.kind = true) :
    Sx (items cm (.punct (Punc.ofLoc s))) (cont cm s.node) := by
  simp only [tokenText, Bool.and_eq_true, List.isEmpty_iff, beq_iff_eq] at ht
  have ha := punct_assoc hp he
  have hk : preHold s.node.kind = .loose := by
    have hp' := hp
    simp only [isPunctuationKind, Bool.or_eq_true, beq_iff_eq] at hp'
    rcases hp' with hp' | hp' <;> (rw [show s.node.kind = _ from hp']; rfl)
  have hk' : postHold s.node.kind = .firm := by
    have hp' := hp
    simp only [isPunctuationKind, Bool.or_eq_true, beq_iff_eq] at hp'
    rcases hp' with hp' | hp' <;> (rw [show s.node.kind = _ from hp']; rfl)
  rw [cont_leaf cm he ht.1, ha, if_pos rfl, if_pos rfl, show s.node.id = s.id from rfl, bcom_eq hbc, acom_eq hbc, hk, hk']
  have hi : items cm (.punct (Punc.ofLoc s)) = .ok ((commentItems (b.pre.filter (fun c => !c.isLine))).map .inl ++
      (codeItem (Punc.ofLoc s).text).map .inl ++ (commentItems (b.pre.filter Comment.isLine ++ b.post)).map .inl, b.pre ++ b.post) := by
    rw [items, show (Punc.ofLoc s).id = s.id from rfl, hb, List.append_assoc]
  have hz : ∀ e ∈ leafCode s.node, e.1 = true := by
    intro e he
    simp only [leafCode, List.mem_map] at he
    obtain ⟨c, _, rfl⟩ := he
    simp [hn]
  have hs : SameL (letters false (Punc.ofLoc s).text) (leafCode s.node) := by
    refine SameL.folded _ _ ?_ hz
    have : (leafCode s.node).map (·.2) = letters false s.node.text := by
      simp [leafCode, List.map_map, Function.comp_def]
    rw [this, ht.2]
    simp only [isPunctuationKind, Bool.or_eq_true, beq_iff_eq] at hp
    rcases hp with hp | hp
    · rw [show s.node.kind = "," from hp]
      simp only [Punc.ofLoc, hp, Punc.text]
      decide
    · rw [show s.node.kind = ";" from hp]
      simp only [Punc.ofLoc, hp, Punc.text]
      decide
  have e : Sx (items cm (.punct (Punc.ofLoc s))) (comC .loose (b.pre.filter (fun c => !c.isLine)) ++ inlC (leafCode s.node) ++
      (comC .loose (b.pre.filter Comment.isLine) ++ comC .firm b.post)) := by
    rw [hi]
    refine sx_exact ?_
    simp only [flatI_append, flatI_commentItems, flatI_codeItem, List.map_append]
    refine SameX.append (SameX.append (SameX.com _ _) ?_) (SameX.append (SameX.com _ _) (SameX.com _ _))
    exact SameX.txt hs
  refine sx_weaken e ?_ ?_ ?_
  · simp
  · have h0 := anchors_folded hz
    simp only [spots_append, spots_com, spots_inl, codeC_append, codeC_com, codeC_inl, anchors_append, anchors_nil, h0,
      List.append_nil, Nat.add_zero]
    refine ⟨b.dangling.map (fun c => (Hold.spot .loose 0, c)), ?_⟩
    have hpr : (b.pre.map (fun c => (Hold.spot .loose 0, c))).Perm ((b.pre.filter (fun c => !c.isLine)).map (fun c => (Hold.spot .loose 0, c)) ++
        (b.pre.filter Comment.isLine).map (fun c => (Hold.spot .loose 0, c))) := by
      rw [← List.map_append]
      refine List.Perm.map _ ?_
      have := List.filter_append_perm (fun c : Comment => !c.isLine) b.pre
      simpa using this.symm
    refine (List.Perm.append_right _ (List.Perm.append_right _ hpr)).trans ?_
    simp only [List.append_assoc]
    exact List.Perm.append_left _ (List.Perm.append_left _ List.perm_append_comm)
  · simp

theorem punct_opt {root : Node} (g : Good root cm) {l : Loc} (h : Reach root l) :
    Sx (itemss cm (punctOpt (Punc.from l))) (pcont cm l) := by
  rw [punc_from]
  cases hn : nexts l with
  | nil => simp only [pcont, hn, punctOpt, itemss_nil]; exact sx_unit
  | cons s r =>
    simp only [pcont, hn]
    cases hp : isPunctuationKind s.kind with
    | false => simp only [Bool.false_eq_true, if_false, punctOpt, itemss_nil]; exact sx_unit
    | true =>
      simp only [if_true, punctOpt, itemss_one]
      cases h with
      | root => cases hn
      | @kid lp _ hl hs hx ha =>
        have hsv := nexts_mem hx (by rw [hn]; simp : s ∈ nexts l)
        have hsv' := mem_view.1 hsv
        have hr : Reach root s := .kid hl hs hsv'.1 (punct_assoc hp hsv'.2)
        obtain ⟨b, hb, hbc⟩ := hr.bucket g
        obtain ⟨h1, h2⟩ := sane_punct hs s.node (mem_children_node hsv'.1) hsv'.2 hp
        exact sx_punct hb hbc h1 hsv'.2 h2 hp

/-- The printed members, between the comments of the bucket. -/
theorem sx_wrapped {id : Nat} {b : Bucket} (hb : getBucket cm id = .ok b) (hd : b.dangling = []) (hbc : cm.get? id = some b) (kind : String)
    {ms : List Prog} {k : Cont} (hm : Sx (itemss cm ms) k) {punc : Option Punc} {pk : Cont}
    (hp : Sx (itemss cm (punctOpt punc)) pk) :
    Sx (items cm (withCommentsAndPunc id punc ms)) (bcom cm kind id ++ k ++ acom cm kind id ++ pk) := by
  rw [withCommentsAndPunc]
  simp only [items_concat, itemss_append, itemss_cons, itemss_nil, items_calm hb hd, seqR_unit_right, sx_pre hb, sx_post hb]
  rw [bcom_eq hbc, acom_eq hbc, hd, comC_nil, List.append_nil, List.append_assoc (comC _ _)]
  exact sx_seq (sx_seq (sx_comments _ b.pre b.pre) (sx_seq hm (sx_comments _ b.post b.post))) hp

theorem sx_attached {id : Nat} {b : Bucket} (hb : getBucket cm id = .ok b) (hd : b.dangling = []) (hbc : cm.get? id = some b) (kind : String)
    {ms : List Prog} {k : Cont} (hm : Sx (itemss cm ms) k) {punc : Option Punc} {pk : Cont}
    (hp : Sx (itemss cm (punctOpt punc)) pk) :
    Sx (items cm (withCommentsAndPuncAttached id punc ms)) (bcom cm kind id ++ (k ++ pk) ++ acom cm kind id) := by
  rw [withCommentsAndPuncAttached]
  simp only [items_concat, itemss_append, itemss_cons, itemss_nil, items_calm hb hd, seqR_unit_right, sx_pre hb, sx_post hb]
  rw [bcom_eq hbc, acom_eq hbc, hd, comC_nil, List.append_nil, ← List.append_assoc]
  exact sx_seq (sx_seq (sx_seq (sx_comments _ b.pre b.pre) hm) hp) (sx_comments _ b.post b.post)

theorem sx_bare {id : Nat} {b : Bucket} (hb : getBucket cm id = .ok b) (hd : b.dangling = []) (hbc : cm.get? id = some b) (kind : String)
    {ms : List Prog} {k : Cont} (hm : Sx (itemss cm ms) k) :
    Sx (items cm (withComments id ms)) (bcom cm kind id ++ k ++ acom cm kind id) := by
  rw [withComments]
  simp only [items_concat, itemss_append, itemss_cons, itemss_nil, items_calm hb hd, seqR_unit_right, sx_pre hb, sx_post hb]
  rw [bcom_eq hbc, acom_eq hbc, hd, comC_nil, List.append_nil, List.append_assoc]
  exact sx_seq (sx_comments _ b.pre b.pre) (sx_seq hm (sx_comments _ b.post b.post))

end

end Afmt.Gram
