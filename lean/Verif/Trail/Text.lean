import Verif.Trail.Tree
import Verif.PropsShape

/-!
# Texts that are not printed do not matter for the ends of lines
-/

namespace Afmt

/-- A text that can be printed: not empty, no line break at its start, no white space at the ends of its lines. -/
def tightText (s : Str) : Bool := !s.isEmpty && !(s.head? == some '\n') && tidyEnds s

mutual
/-- Every node has children or a visible text, and a proper kind; texts that are printed satisfy `t`. -/
def crispBy (t : Str → Bool) (pk : String) (pf : Option String) : Node → Bool
  | .mk id kind named extra err field sr er sb eb text children =>
    (!children.isEmpty || !(ink text).isEmpty) && t kind.toList &&
    (!(Node.mk id kind named extra err field sr er sb eb text children).shown pk pf || t text) && crispsBy t kind field children
/-- Siblings. -/
def crispsBy (t : Str → Bool) (pk : String) (pf : Option String) : List Node → Bool
  | [] => true
  | c :: cs => crispBy t pk pf c && crispsBy t pk pf cs
end

/-- Texts that are printed have no white space at the ends of their lines. -/
abbrev crisps (pk : String) (pf : Option String) (ns : List Node) : Bool := crispsBy tightText pk pf ns

mutual
/-- Every `for` statement with three parts has an update. -/
def updates : Node → Bool
  | .mk _ kind _ _ _ _ _ _ _ _ _ children =>
    (kind != "for_statement" || children.any (fun c => c.field == some "update")) && updatess children
/-- Siblings. -/
def updatess : List Node → Bool
  | [] => true
  | c :: cs => updates c && updatess cs
end

namespace Trail
open Gram
open Afmt.Lines (All conf_all child_of fullKinds retext retext_skel retext_ids retext_closed retext_plain retext_conforms retext_children silent_of plain_all Silent syms)

variable [Gate]

/-- A text that can be printed and that the gate admits. -/
def admitted (s : Str) : Bool := tightText s && (Gate.ok s && (!Gate.on || !lead s))

theorem tight_iff (s : Str) : admitted s = true ↔ Tight s := by
  unfold Tight admitted tightText front
  have h : ((!Gate.on || !lead s) = true) ↔ (Gate.on = true → lead s = false) := by
    cases (Gate.on : Bool) <;> simp
  simp only [Bool.and_eq_true, h, Bool.not_eq_true', List.isEmpty_eq_false_iff, and_assoc]

/-- The text, or another one that can be printed. -/
def tameText (s : Str) : Str := if admitted s then s else ['x']

theorem tameText_tight (s : Str) : Tight (tameText s) := by
  rw [← tight_iff, tameText]
  split
  · assumption
  · exact (tight_iff _).2 (Tight_const (by decide))

mutual
/-- Replace the texts that cannot be printed. -/
def tame : Node → Node
  | .mk id kind named extra err field sr er sb eb text children =>
    .mk id kind named extra err field sr er sb eb (tameText text) (tames children)
/-- Siblings. -/
def tames : List Node → List Node
  | [] => []
  | n :: ns => tame n :: tames ns
end

theorem tames_eq (ns : List Node) : tames ns = ns.map tame := by
  induction ns with
  | nil => rw [tames, List.map_nil]
  | cons n ns ih => rw [tames, ih, List.map_cons]

theorem tame_named (n : Node) : (tame n).named = n.named := by cases n; rw [tame]
theorem tame_extra (n : Node) : (tame n).extra = n.extra := by cases n; rw [tame]
theorem tame_kind (n : Node) : (tame n).kind = n.kind := by cases n; rw [tame]
theorem tame_field (n : Node) : (tame n).field = n.field := by cases n; rw [tame]
theorem tame_startRow (n : Node) : (tame n).startRow = n.startRow := by cases n; rw [tame]
theorem tame_endRow (n : Node) : (tame n).endRow = n.endRow := by cases n; rw [tame]
theorem tame_startByte (n : Node) : (tame n).startByte = n.startByte := by cases n; rw [tame]
theorem tame_text (n : Node) : (tame n).text = tameText n.text := by cases n; rw [tame]
theorem tame_children (n : Node) : (tame n).children = n.children.map tame := by cases n; rw [tame, tames_eq]
theorem tame_code (n : Node) : (tame n).isCode = n.isCode := by
  rw [Node.isCode, tame_extra, tame_named, tame_kind, Node.isCode]
theorem tame_shown (pk : String) (pf : Option String) (n : Node) : (tame n).shown pk pf = n.shown pk pf := by
  unfold Node.shown
  rw [tame_extra, tame_kind, tame_field, tame_children, List.any_map]
  simp only [Function.comp_def, tame_named]

theorem tame_find {p : Node → Bool} (hp : ∀ n : Node, p (tame n) = p n) (ns : List Node) :
    (ns.map tame).find? p = (ns.find? p).map tame := by
  rw [List.find?_map]
  congr 1
  congr 1
  funext x
  exact hp x

theorem tame_around (checks body : Bool) (lefts : List Node) (n : Node) (rights : List Node) :
    around checks body (lefts.map tame) (tame n) (rights.map tame) = around checks body lefts n rights := by
  unfold around
  simp only [tame_find tame_named, tame_find tame_code, Option.map_map, tame_extra, tame_named]
  simp only [Function.comp_def, tame_startRow, tame_endRow]

theorem tame_opFirst (n : Node) : (tame n).operatorFirst = n.operatorFirst := by
  unfold Node.operatorFirst
  rw [tame_children]
  have p1 : ∀ (s : String) (n : Node), ((tame n).field == some s) = (n.field == some s) := by
    intro s n; rw [tame_field]
  rw [tame_find (p1 "operator"), tame_find (p1 "operand")]
  cases n.children.find? (fun x => x.field == some "operator") with
  | none => rfl
  | some o =>
    cases n.children.find? (fun x => x.field == some "operand") with
    | none => rfl
    | some x => simp only [Option.map_some, tame_startByte]

mutual
theorem tame_skel (checks : Bool) (pk : String) (pf : Option String) (body : Bool) (lefts rights : List Node) : ∀ n : Node,
    crispBy admitted pk pf n = true → (tame n).skel checks pk pf body (lefts.map tame) (rights.map tame) = n.skel checks pk pf body lefts rights
  | .mk id kind named extra err field sr er sb eb text children, h => by
    have h1 := tame_around checks body lefts (.mk id kind named extra err field sr er sb eb text children) rights
    have h2 := tame_opFirst (.mk id kind named extra err field sr er sb eb text children)
    have h3 := tame_shown pk pf (.mk id kind named extra err field sr er sb eb text children)
    simp only [crispBy, Bool.and_eq_true] at h
    have h5 := tame_skels checks kind field (isBodyNode pk field kind) children [] h.2
    have h4 := h.1.2
    simp only [tame] at h1 h2 h3 ⊢
    rw [Node.skel, Node.skel]
    simp only [h1, h2, h3]
    have h6 : (if (Node.mk id kind named extra err field sr er sb eb text children).shown pk pf = true then
          some ((Node.mk id kind named extra err field sr er sb eb (tameText text) (tames children)).spelling pk pf) else none) =
        if (Node.mk id kind named extra err field sr er sb eb text children).shown pk pf = true then
          some ((Node.mk id kind named extra err field sr er sb eb text children).spelling pk pf) else none := by
      split
      · rename_i hs
        rw [hs] at h4
        have : tameText text = text := by rw [tameText, if_pos (by simpa using h4)]
        rw [Node.spelling, Node.spelling]
        simp only [this]
      · rfl
    rw [h6, tames_eq]
    exact congrArg _ h5
theorem tame_skels (checks : Bool) (pk : String) (pf : Option String) (body : Bool) : ∀ ns lefts : List Node,
    crispsBy admitted pk pf ns = true → skels checks pk pf body (lefts.map tame) (ns.map tame) = skels checks pk pf body lefts ns
  | [], _, _ => by rw [List.map_nil, skels, skels]
  | n :: ns, lefts, h => by
    rw [crispsBy, Bool.and_eq_true] at h
    rw [List.map_cons, skels, skels, tame_skel checks pk pf body lefts ns n h.1]
    have := tame_skels checks pk pf body ns (n :: lefts) h.2
    rw [List.map_cons] at this
    rw [this]
end

mutual
theorem tame_ids : ∀ n : Node, (tame n).ids = n.ids
  | .mk id kind named extra err field sr er sb eb text children => by rw [tame, Node.ids, Node.ids, tames_ids children]
theorem tames_ids : ∀ ns : List Node, idsOf (tames ns) = idsOf ns
  | [] => rfl
  | n :: ns => by rw [tames, idsOf, idsOf, tame_ids n, tames_ids ns]
end

mutual
theorem tame_plain : ∀ n : Node, plain (tame n) = plain n
  | .mk id kind named extra err field sr er sb eb text children => by rw [tame, plain, plain, tames_plain children]
theorem tames_plain : ∀ ns : List Node, plains (tames ns) = plains ns
  | [] => rfl
  | n :: ns => by rw [tames, plains, plains, tame_plain n, tames_plain ns]
end

theorem tame_associable (n : Node) : (tame n).associable = n.associable := by
  unfold Node.associable
  simp only [tame_extra, tame_named, tame_kind]

mutual
theorem tame_closed : ∀ n : Node, n.Closed → (tame n).Closed
  | .mk id kind named extra err field sr er sb eb text children, h => by
    rw [tame]; rw [Node.Closed] at h ⊢; exact tames_closed children h
theorem tames_closed : ∀ ns : List Node, kidsClosed ns → kidsClosed (tames ns)
  | [], _ => trivial
  | n :: ns, h => by
    rw [tames]; rw [kidsClosed] at h ⊢
    refine ⟨fun ha => ?_, tame_closed n h.2.1, tames_closed ns h.2.2⟩
    rw [tame_associable] at ha
    rw [tame_children, h.1 ha, List.map_nil]
end

theorem All.tame {Q R : Node → Prop} (hqr : ∀ n, Q n → R (tame n)) {n : Node} (h : All Q n) : All R (Trail.tame n) := by
  induction h with
  | mk h _ ih =>
    refine .mk (hqr _ h) (fun c hc => ?_)
    rw [tame_children] at hc
    obtain ⟨d, hd, rfl⟩ := List.mem_map.1 hc
    exact ih d hd

mutual
theorem crisp_all : ∀ (pk : String) (pf : Option String) (n : Node), crispBy admitted pk pf n = true →
    All (fun x => (x.children ≠ [] ∨ ink x.text ≠ []) ∧ Tight x.kind.toList) n
  | pk, pf, .mk id kind named extra err field sr er sb eb text children, h => by
    simp only [crispBy, Bool.and_eq_true] at h
    refine .mk ⟨?_, (tight_iff _).1 h.1.1.2⟩ (crisps_all kind field children h.2)
    have := h.1.1.1
    rw [Bool.or_eq_true] at this
    exact this.imp (by simp) (by simp)
theorem crisps_all : ∀ (pk : String) (pf : Option String) (ns : List Node), crispsBy admitted pk pf ns = true → ∀ c ∈ ns,
    All (fun x => (x.children ≠ [] ∨ ink x.text ≠ []) ∧ Tight x.kind.toList) c
  | _, _, [], _, c, hc => by cases hc
  | pk, pf, n :: ns, h, c, hc => by
    rw [crispsBy, Bool.and_eq_true] at h
    rcases List.mem_cons.1 hc with e | hc
    · rw [e]; exact crisp_all pk pf n h.1
    · exact crisps_all pk pf ns h.2 c hc
end

mutual
theorem updates_all : ∀ n : Node, updates n = true →
    All (fun x => x.kind = "for_statement" → ∃ c ∈ x.children, c.field = some "update") n
  | .mk id kind named extra err field sr er sb eb text children, h => by
    simp only [updates, Bool.and_eq_true] at h
    refine .mk (fun hk => ?_) (updatess_all children h.2)
    simp only at hk
    subst hk
    simpa using h.1
theorem updatess_all : ∀ ns : List Node, updatess ns = true → ∀ c ∈ ns,
    All (fun x => x.kind = "for_statement" → ∃ c ∈ x.children, c.field = some "update") c
  | [], _, c, hc => by cases hc
  | n :: ns, h, c, hc => by
    rw [updatess, Bool.and_eq_true] at h
    rcases List.mem_cons.1 hc with e | hc
    · rw [e]; exact updates_all n h.1
    · exact updatess_all ns h.2 c hc
end

/-- What is needed of the nodes. -/
structure Fact (n : Node) : Prop extends Tr n where
  text : Tight n.text
  kind : Tight n.kind.toList
  full : fullKinds.contains n.kind = true → ∃ c ∈ n.children, c.named = true
  upd : n.kind = "for_statement" → ∃ c ∈ n.children, c.field = some "update"
  extra : n.extra = false

theorem find_field {l : Loc} {f : String} (h : ∃ c ∈ l.node.children, c.field = some f) : l.tryCByN f ≠ none := by
  obtain ⟨c, hc, hf⟩ := h
  obtain ⟨x, hx, rfl⟩ := child_of hc
  unfold Loc.tryCByN
  intro hn
  rw [List.find?_eq_none] at hn
  exact hn x hx (by simp [hf])

theorem tightTree_of {root : Node} (h : All Fact root) : TightTree root := by
  have vec : ∀ {l x : Loc}, In root l → x ∈ l.children → x.node.named = true → x ∈ l.childrenVec := by
    intro l x hl hx hn
    have he := ((h.at hl).kid (All.at.mem_children_node hx)).here.extra
    unfold Loc.childrenVec Loc.namedChildren
    rw [List.mem_filter, List.mem_filter]
    exact ⟨⟨hx, hn⟩, by simp [Loc.extra, he]⟩
  refine ⟨fun l hl => (h.at hl).here.text, fun l hl => (h.at hl).here.kind, ?_, ?_, ?_, ?_, fun l hl => (h.at hl).here.look⟩
  · intro l hl hk
    obtain ⟨c, hc, hn⟩ := (h.at hl).here.full hk
    obtain ⟨x, hxl, rfl⟩ := child_of hc
    exact List.ne_nil_of_mem (vec hl hxl hn)
  · exact fun l hl hk => find_field ((h.at hl).here.upd hk)
  · intro l hl hk
    obtain ⟨c, hc, hn, hkd⟩ := (h.at hl).here.grp hk
    obtain ⟨x, hxl, rfl⟩ := child_of hc
    refine List.ne_nil_of_mem (List.mem_filter.2 ⟨vec hl hxl hn, ?_⟩)
    simpa [Loc.kind] using hkd
  · intro l hl hk hv
    obtain ⟨c, hc, hn, hkd⟩ := (h.at hl).here.asg hk (by
      cases hx : l.tryCByN "value" with
      | none => exact absurd hx hv
      | some x =>
        exact ⟨x.node, All.at.mem_children_node (List.mem_of_find?_eq_some hx), by simpa using List.find?_some hx⟩)
    obtain ⟨x, hxl, rfl⟩ := child_of hc
    unfold Loc.tryCByK Loc.namedChildren
    intro h0
    rw [List.find?_eq_none] at h0
    exact h0 x (List.mem_filter.2 ⟨hxl, hn⟩) (by simp [Loc.kind, hkd])

theorem Tr.tame {n : Node} (h : Tr n) : Tr (Trail.tame n) := by
  obtain ⟨h1, h2, h3⟩ := h
  refine ⟨fun hk => ?_, fun hk ⟨c, hc, hf⟩ => ?_, ?_⟩
  · rw [tame_kind] at hk
    obtain ⟨c, hc, hn, hkd⟩ := h1 hk
    exact ⟨Trail.tame c, by rw [tame_children]; exact List.mem_map_of_mem hc, by rw [tame_named, hn], by rw [tame_kind]; exact hkd⟩
  · rw [tame_kind] at hk
    rw [tame_children] at hc
    obtain ⟨d, hd, rfl⟩ := List.mem_map.1 hc
    rw [tame_field] at hf
    obtain ⟨c, hc, hn, hkd⟩ := h2 hk ⟨d, hd, hf⟩
    exact ⟨Trail.tame c, by rw [tame_children]; exact List.mem_map_of_mem hc, by rw [tame_named, hn], by rw [tame_kind]; exact hkd⟩
  · rwa [tame_kind]

theorem All.and {Q R : Node → Prop} {n : Node} (h : All Q n) (h' : All R n) : All (fun x => Q x ∧ R x) n := by
  induction h with
  | mk h _ ih => exact .mk ⟨h, h'.here⟩ (fun c hc => ih c hc (h'.kid hc))

theorem facts {root : Node} (h1 : All Tr root) (h2 : All (fun x => (x.children ≠ [] ∨ ink x.text ≠ []) ∧ Tight x.kind.toList) root)
    (h3 : All Lines.Frame root) (h4 : All (fun x => x.kind = "for_statement" → ∃ c ∈ x.children, c.field = some "update") root)
    (h5 : All (fun x => x.extra = false) root) : All Fact (tame root) := by
  refine All.tame (fun n hn => ?_) (All.and h1 (All.and h2 (All.and h3 (All.and h4 h5))))
  obtain ⟨g1, ⟨-, g2⟩, g3, g4, g5⟩ := hn
  refine { Tr.tame g1 with text := ?_, kind := ?_, full := fun h => ?_, upd := fun h => ?_, extra := ?_ }
  · rw [tame_text]; exact tameText_tight _
  · rwa [tame_kind]
  · rw [tame_kind] at h
    obtain ⟨c, hc, hn⟩ := g3.full h
    exact ⟨tame c, by rw [tame_children]; exact List.mem_map_of_mem hc, by rw [tame_named, hn]⟩
  · rw [tame_kind] at h
    obtain ⟨c, hc, hn⟩ := g4 h
    exact ⟨tame c, by rw [tame_children]; exact List.mem_map_of_mem hc, by rw [tame_field, hn]⟩
  · rwa [tame_extra]

/-- A tree whose printed texts are trimmed, with another text for the whole file and with tame texts. -/
theorem tame_tree {root : Node} (checks : Bool) (hf : root.field = none) (hc : conforms root = true) (hx : plain root = true)
    (ht : crispsBy admitted "parser_output" none root.children = true) (hu : updates root = true) :
    crispBy admitted "" none (retext ['x'] root) = true ∧ TightTree (tame (retext ['x'] root)) ∧
    skeleton checks (tame (retext ['x'] root)) = skeleton checks (retext ['x'] root) := by
  obtain ⟨hk, hnm, hex, hcf⟩ := conforms_root hc
  have hk1 : (retext ['x'] root).kind = "parser_output" := by cases root; exact hk
  have hf1 : (retext ['x'] root).field = none := by cases root; exact hf
  have ht1 : (retext ['x'] root).text = ['x'] := by cases root; rfl
  have hx1 := retext_plain ['x'] hx
  have hcr : crispBy admitted "" none (retext ['x'] root) = true := by
    cases root with
    | mk id kind named extra err field sr er sb eb text children =>
      simp only at hk hf hex ht
      subst hk hf hex
      simp only [retext, crispBy, ht, Bool.and_true]
      have h1 : (Node.mk id "parser_output" named false err none sr er sb eb ['x'] children).shown "" none = false := by
        simp [Node.shown, wordField, wordKinds]
      rw [h1, show (ink ['x']).isEmpty = false from rfl, Bool.not_false, Bool.or_true, Bool.true_or, Bool.true_and, Bool.and_true]
      exact (tight_iff _).2 (Tight_const (by decide +kernel))
  have hfr : All Lines.Frame (retext ['x'] root) := by
    by_cases hne : root.children = []
    · refine .mk ⟨fun h => ?_, fun h => ?_, fun h => ?_, fun _ => ?_⟩ (fun c hc => ?_)
      · rw [hk1] at h; exact absurd h (by decide)
      · rw [hk1] at h; exact absurd h (by decide)
      · rw [hk1] at h; exact absurd h (by decide)
      · rw [retext_children, hne]; exact ⟨[], [], [], rfl, nofun, nofun, nofun⟩
      · rw [retext_children, hne] at hc; cases hc
    · obtain ⟨-, -, -, hcf1⟩ := conforms_root (retext_conforms ['x'] hc hne)
      exact conf_all _ _ hcf1 hx1 ((crisp_all _ _ _ hcr).imp (fun n hn => hn.1))
  have htr : All Tr (retext ['x'] root) := by
    have := conf_tr root _ hcf
    refine .mk ⟨fun h => ?_, fun h => ?_, ?_⟩ (fun c hc => this.kid (by rwa [retext_children] at hc))
    · rw [hk1] at h; exact absurd h (by decide)
    · rw [hk1] at h; exact absurd h (by decide)
    · rw [hk1]; decide
  have hup : All (fun x => x.kind = "for_statement" → ∃ c ∈ x.children, c.field = some "update") (retext ['x'] root) := by
    refine .mk (fun h => ?_) (fun c hc => (updates_all root hu).kid (by rwa [retext_children] at hc))
    rw [hk1] at h; exact absurd h (by decide)
  have hall := facts htr (crisp_all _ _ _ hcr) hfr hup (plain_all _ hx1)
  have hsk : skeleton checks (tame (retext ['x'] root)) = skeleton checks (retext ['x'] root) := by
    have := tame_skel checks "" none false [] [] _ hcr
    rwa [List.map_nil] at this
  exact ⟨hcr, tightTree_of hall, hsk⟩

/-- The formatted text is the layout of a program without comments that the machine accepts. -/
theorem format_run {checks : Bool} {depth : Nat} {cfg : Config} {root : Node} {out : Str} (hcl : root.Closed)
    (hi : root.ids.Nodup) (hf : root.field = none) (hc : conforms root = true) (hx : plain root = true)
    (ht : crispsBy admitted "parser_output" none root.children = true) (hu : updates root = true)
    (h : formatTree checks depth cfg root = .ok out) : ∃ k cm p d l, Silent cm ∧ Prog.build k cm p = .ok (d, l) ∧
    run .N (syms p) ≠ .bad ∧ out = layout cfg.maxWidth d := by
  obtain ⟨hk, hnm, hex, hcf⟩ := conforms_root hc
  obtain ⟨-, htt, hsk⟩ := tame_tree checks hf hc hx ht hu
  have hi1 : (retext ['x'] root).ids.Nodup := by rw [retext_ids]; exact hi
  have h1 := (C50_only_the_skeleton_matters _ _ checks (retext_skel ['x'] hk hex hf) hi1 hi depth cfg out).2 h
  have hn1 : (retext ['x'] root).named = true := by cases root; exact hnm
  have he1 : (retext ['x'] root).extra = false := by cases root; exact hex
  have hx1 := retext_plain ['x'] hx
  have h2 := (C50_only_the_skeleton_matters _ _ checks hsk (by rw [tame_ids]; exact hi1) hi1 depth cfg out).2 h1
  obtain ⟨cm, p, is, log, d, hcm, hn, -, -, hb, -, -, hout⟩ := formatTree_content h2
  have hnil := (C14_every_comment_attached_once _ (tame_closed _ (retext_closed ['x'] hcl)) (by rw [tame_named, hn1])
    (by rw [tame_extra, he1])).2 cm hcm
  rw [plain_extras _ (by rw [tame_plain]; exact hx1)] at hnil
  have hsil := silent_of (show cm.all = [] by simpa using hnil)
  exact ⟨_, cm, p, d, _, hsil, hb, root_run htt hn, hout⟩

omit [Gate] in
/-- No line break of the formatted text comes after white space. -/
theorem format_inner {checks : Bool} {depth : Nat} {cfg : Config} {root : Node} {out : Str} (hcl : root.Closed)
    (hi : root.ids.Nodup) (hf : root.field = none) (hc : conforms root = true) (hx : plain root = true)
    (ht : crisps "parser_output" none root.children = true) (hu : updates root = true)
    (h : formatTree checks depth cfg root = .ok out) : inner out = true := by
  have e : @admitted Gate.loose = tightText := by
    funext s
    show (tightText s && (true && (!false || !lead s))) = tightText s
    simp
  obtain ⟨k, cm, p, d, l, h1, h2, h3, rfl⟩ := @format_run Gate.loose checks depth cfg root out hcl hi hf hc hx (by rw [e]; exact ht) hu h
  exact @layout_inner Gate.loose cm h1 k p d l h2 _ h3

end Trail
end Afmt
