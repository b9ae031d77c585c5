import Verif.ShapeFrom
import Verif.CollectSpec

/-!
# Formatting trees that differ in ids and positions only
-/

namespace Afmt
open Gram

variable {root : Node} {τ : Nat → Pos}

/-! ### Constructors -/

theorem new_ren {cfg cfg' : Cfg} (hl : ∀ l, In root l → l.skel cfg.checks = (l.ren τ).skel cfg.checks)
    (ht : ∀ l p, In root p → p.isBody = true → l ∈ p.childrenVec →
      Prog.New.hasTrailingNewline cfg' (l.ren τ) = Prog.New.hasTrailingNewline cfg l) :
    ∀ (fuel : Nat) (c : Cls) (l : Loc), In root l → K τ c l →
      Prog.new cfg' fuel c (l.ren τ) = (Prog.new cfg fuel c l).map (Prog.ren τ)
  | 0, _, _, _, _ => rfl
  | fuel + 1, c, _, hn, hk => step_ren ⟨hl, fun c l => new_ren hl ht fuel c l, ht⟩ c hn hk

/-- The second map is the first one with other ids. -/
structure SameMap (τ : Nat → Pos) (cm cm' : CMap) : Prop where
  bucket : ∀ i, getBucket cm' (τ i).id = (getBucket cm i).map (Bucket.ren τ)
  all : ∀ c, c ∈ cm'.all ↔ ∃ d ∈ cm.all, c = d.ren τ

theorem right_nodes (l : Loc) : l.rightSiblings.map Loc.node = l.rightNodes := by
  obtain ⟨n, path⟩ := l
  cases path with
  | nil => rfl
  | cons f path => exact childrenGo_map _ _ _

theorem next_node (l : Loc) : l.nextNamedSibling.map Loc.node = l.rightNodes.find? (·.named) := by
  rw [← right_nodes, List.find?_map]
  rfl

theorem trail_ren {checks : Bool} {cm cm' : CMap} (hm : SameMap τ cm cm') (hl : ∀ l, In root l → l.skel checks = (l.ren τ).skel checks)
    {l p : Loc} (hp : In root p) (hb : p.isBody = true) (hc : l ∈ p.childrenVec) :
    Prog.New.hasTrailingNewline ⟨cm', checks⟩ (l.ren τ) = Prog.New.hasTrailingNewline ⟨cm, checks⟩ l := by
  have hx := (List.mem_filter.mp hc).2
  have hn := (List.mem_filter.mp (List.mem_filter.mp hc).1).2
  have hch := (List.mem_filter.mp (List.mem_filter.mp hc).1).1
  have hs := congrArg Skel.lines (hl l (.child hp hch))
  rw [skel_lines, skel_lines] at hs
  have hmem := congrArg Around.member hs
  have hib : l.inBody = true := by rw [Loc.inBody, children_parent hch]; exact hb
  have hib' : (l.ren τ).inBody = true := by
    rw [Loc.inBody, loc_parent, children_parent hch]
    show isBodyNode _ _ _ = true
    rw [← hb, Loc.isBody]
    congr 1
    · obtain ⟨n, path⟩ := p
      cases path with
      | nil => rfl
      | cons f path => exact node_kind τ f.parent
    · exact node_field τ p.node
    · exact node_kind τ p.node
  have e1 : (l.ren τ).node.named = true := by rw [show (l.ren τ).node = l.node.ren τ from rfl, node_named]; exact hn
  have e2 : (l.ren τ).node.extra = false := by
    rw [show (l.ren τ).node = l.node.ren τ from rfl, node_extra]
    simpa [Loc.extra] using hx
  have e3 : l.node.named = true := hn
  have e4 : l.node.extra = false := by simpa [Loc.extra] using hx
  simp only [around, hib, hib', e1, e2, e3, e4, Bool.not_false, Bool.and_true, if_true] at hmem
  rw [← next_node, ← next_node, loc_nextNamedSibling] at hmem
  unfold Prog.New.hasTrailingNewline
  simp only [loc_id, hm.bucket, loc_nextNamedSibling]
  cases getBucket cm l.id with
  | error e => rfl
  | ok b =>
    simp only [Except.map, Bucket.ren, List.getLast?_map]
    cases b.post.getLast? with
    | some c => rfl
    | none =>
      simp only [Option.map_none]
      cases hq : l.nextNamedSibling with
      | none => rfl
      | some s =>
        simp only [hq, Option.map_some, Option.some.injEq, Prod.mk.injEq] at hmem ⊢
        obtain ⟨h1, h2⟩ := hmem
        change (checks && s.startRow == 0) = (checks && (s.ren τ).startRow == 0) at h1
        change ((!checks && s.startRow == 0) || decide (l.endRow + 1 < s.startRow)) =
          ((!checks && (s.ren τ).startRow == 0) || decide ((l.ren τ).endRow + 1 < (s.ren τ).startRow)) at h2
        rw [lt_pred, lt_pred]
        cases checks with
        | true =>
          simp only [Bool.true_and, Bool.not_true, Bool.false_and, Bool.false_or] at h1 h2
          have h1 : ((s.ren τ).startRow = 0) = (s.startRow = 0) := by
            rw [Bool.eq_iff_iff, beq_iff_eq, beq_iff_eq] at h1
            exact propext h1.symm
          simp only [h1, if_true, h2]
        | false =>
          simp only [Bool.not_false, Bool.true_and] at h2
          have e : ∀ (a b : Nat), (if b = 0 then Except.ok (ε := Panic) true else .ok (decide (a + 1 < b))) =
              .ok ((b == 0) || decide (a + 1 < b)) := by
            intro a b
            split
            · rename_i h; simp [h]
            · rename_i h; simp [h]
          simp only [Bool.false_eq_true, if_false, e, h2]

/-! ### Printing -/

theorem postDocs_ren : ∀ cs : List Comment, (∀ c ∈ cs, (c.ren τ).build = c.build) → postDocs (cs.map (Comment.ren τ)) = postDocs cs
  | [], _ => rfl
  | c :: cs, h => by
    rw [List.map_cons, postDocs, postDocs, postDocs_ren cs (fun d hd => h d (by simp [hd])), h c (by simp)]; rfl

theorem preDocs_ren : ∀ (cs : List Comment) (f : Bool), (∀ c ∈ cs, (c.ren τ).build = c.build) →
    preDocs f (cs.map (Comment.ren τ)) = preDocs f cs
  | [], _, _ => rfl
  | c :: cs, f, h => by
    rw [List.map_cons, preDocs, preDocs, preDocs_ren cs _ (fun d hd => h d (by simp [hd])), h c (by simp)]
    have : (cs.map (Comment.ren τ) = []) = (cs = []) := by rw [List.map_eq_nil_iff]
    simp only [this]
    rfl

theorem danglingDocs_ren : ∀ cs : List Comment, (∀ c ∈ cs, (c.ren τ).build = c.build) →
    danglingDocs (cs.map (Comment.ren τ)) = danglingDocs cs
  | [], _ => rfl
  | c :: cs, h => by
    rw [List.map_cons, danglingDocs, danglingDocs, danglingDocs_ren cs (fun d hd => h d (by simp [hd])), h c (by simp)]; rfl

theorem filter_comments (p : Comment → Bool) (h : ∀ c : Comment, p (c.ren τ) = p c) (cs : List Comment) :
    (cs.map (Comment.ren τ)).filter p = (cs.filter p).map (Comment.ren τ) := by
  rw [List.filter_map]
  congr 1
  congr 1
  funext c
  exact h c

theorem puncDocs_ren (b : Bucket) (p : Punc) (h : ∀ c ∈ b.all, (c.ren τ).build = c.build) :
    puncDocs (b.ren τ) (p.ren τ) = puncDocs b p := by
  simp only [puncDocs, Bucket.ren]
  rw [filter_comments _ (fun _ => rfl), filter_comments _ (fun _ => rfl), ← List.map_append, postDocs_ren, postDocs_ren]
  · rfl
  all_goals
    intro c hc
    refine h c ?_
    simp only [Bucket.all, List.mem_append, List.mem_filter] at hc ⊢
    grind

/-- The result of a build with other ids in the log. -/
def renLog {α : Type} (τ : Nat → Pos) (x : α × List Comment) : α × List Comment := (x.1, x.2.map (Comment.ren τ))

mutual
theorem build_ren {cm cm' : CMap} (hm : SameMap τ cm cm') (ht : SameText τ cm) (k : Nat) : ∀ p : Prog,
    Prog.build k cm' (p.ren τ) = (Prog.build k cm p).map (renLog τ)
  | .txt s => rfl
  | .nl => rfl
  | .softline => rfl
  | .maybeline => rfl
  | .forceBreak => rfl
  | .sep _ => rfl
  | .fail e => rfl
  | .concat ps => by
    rw [Prog.ren, Prog.build, Prog.build, builds_ren hm ht k ps]
    cases Prog.builds k cm ps <;> rfl
  | .group p => by
    rw [Prog.ren, Prog.build, Prog.build, build_ren hm ht k p]
    cases Prog.build k cm p <;> rfl
  | .indent p => by
    rw [Prog.ren, Prog.build, Prog.build, build_ren hm ht k p]
    cases Prog.build k cm p <;> rfl
  | .dedent p => by
    rw [Prog.ren, Prog.build, Prog.build, build_ren hm ht k p]
    cases Prog.build k cm p <;> rfl
  | .pre id => by
    rw [Prog.ren, Prog.build, Prog.build, hm.bucket]
    cases hb : getBucket cm id with
    | error e => rfl
    | ok b =>
      have := preDocs_ren (τ := τ) b.pre true (fun c hc => ht.build c (getBucket_mem hb c (by simp [Bucket.all, hc])))
      simp only [Except.map, renLog, Bucket.ren, this]
  | .post id => by
    rw [Prog.ren, Prog.build, Prog.build, hm.bucket]
    cases hb : getBucket cm id with
    | error e => rfl
    | ok b =>
      have := postDocs_ren (τ := τ) b.post (fun c hc => ht.build c (getBucket_mem hb c (by simp [Bucket.all, hc])))
      simp only [Except.map, renLog, Bucket.ren, this]
  | .dangling id => by
    rw [Prog.ren, Prog.build, Prog.build, hm.bucket]
    cases hb : getBucket cm id with
    | error e => rfl
    | ok b =>
      have := danglingDocs_ren (τ := τ) b.dangling (fun c hc => ht.build c (getBucket_mem hb c (by simp [Bucket.all, hc])))
      simp only [Except.map, Bucket.ren, this, List.map_eq_nil_iff]
      split
      · rfl
      · rfl
  | .rootDangling id => by
    rw [Prog.ren, Prog.build, Prog.build, hm.bucket]
    cases hb : getBucket cm id with
    | error e => rfl
    | ok b =>
      have : b.dangling.map (Comment.build ∘ Comment.ren τ) = b.dangling.map Comment.build :=
        List.map_congr_left (fun c hc => ht.build c (getBucket_mem hb c (by simp [Bucket.all, hc])))
      simp only [Except.map, Bucket.ren, renLog, List.map_map, List.map_nil, this]
  | .punct p => by
    rw [Prog.ren, Prog.build, Prog.build, show (p.ren τ).id = (τ p.id).id from rfl, hm.bucket]
    cases hb : getBucket cm p.id with
    | error e => rfl
    | ok b =>
      simp only [Except.map, renLog, puncDocs_ren b p (fun c hc => ht.build c (getBucket_mem hb c hc)), List.map_append]
      rfl
  | .ifDangling id p q => by
    rw [Prog.ren, Prog.build, Prog.build, hm.bucket]
    cases getBucket cm id with
    | error e => rfl
    | ok b =>
      simp only [Except.map, Bucket.ren, ne_eq, List.map_eq_nil_iff]
      split
      · exact build_ren hm ht k p
      · exact build_ren hm ht k q
theorem builds_ren {cm cm' : CMap} (hm : SameMap τ cm cm') (ht : SameText τ cm) (k : Nat) : ∀ ps : List Prog,
    Prog.builds k cm' (Prog.rens τ ps) = (Prog.builds k cm ps).map (renLog τ)
  | [] => rfl
  | p :: ps => by
    rw [Prog.rens, Prog.builds, Prog.builds, build_ren hm ht k p]
    cases Prog.build k cm p with
    | error e => rfl
    | ok x =>
      simp only [Except.map, renLog]
      rw [builds_ren hm ht k ps]
      cases Prog.builds k cm ps with
      | error e => rfl
      | ok y => simp only [Except.map, renLog, List.map_append]
end

theorem missing_ren {cm cm' : CMap} (hm : SameMap τ cm cm') (ht : SameText τ cm) (log : List Comment) (hl : ∀ c ∈ log, c ∈ cm.all) :
    noMissingComments cm' (log.map (Comment.ren τ)) = noMissingComments cm log := by
  rw [Bool.eq_iff_iff]
  simp only [noMissingComments, List.all_eq_true, decide_eq_true_eq]
  constructor
  · intro h c hc
    obtain ⟨d, hd, e⟩ := List.mem_map.mp (h _ ((hm.all _).mpr ⟨c, hc, rfl⟩))
    exact ht.inj d (hl d hd) c hc e ▸ hd
  · intro h c hc
    obtain ⟨d, hd, rfl⟩ := (hm.all _).mp hc
    exact List.mem_map_of_mem (h d hd)

theorem enrich_ren (checks : Bool) (hs : skeleton checks root = skeleton checks (root.ren τ)) {cm cm' : CMap}
    (hm : SameMap τ cm cm') (ht : SameText τ cm) (depth : Nat) (cfg : Config) :
    enrichAndPrint checks depth cfg (root.ren τ) cm' = enrichAndPrint checks depth cfg root cm := by
  have hn := new_ren (cfg := ⟨cm, checks⟩) (cfg' := ⟨cm', checks⟩) (fun l h => look τ hs h)
    (fun l p hp hb hc => trail_ren hm (fun l h => look τ hs h) hp hb hc) depth .root ⟨root, []⟩ .root trivial
  unfold enrichAndPrint
  rw [show Loc.ofRoot (root.ren τ) = Loc.ren τ ⟨root, []⟩ from rfl, hn]
  rw [show Loc.ofRoot root = (⟨root, []⟩ : Loc) from rfl]
  cases Prog.new ⟨cm, checks⟩ depth .root ⟨root, []⟩ with
  | error e => rfl
  | ok p =>
    simp only [Except.map]
    rw [build_ren hm ht]
    split
    · rfl
    cases hb : Prog.build cfg.indentSize cm p with
    | error e => rfl
    | ok x => simp only [Except.map, renLog, missing_ren hm ht x.2 (build_sub _ _ _ _ _ hb)]

theorem sameMap_ren (inj : ∀ a b, (τ a).id = (τ b).id → a = b) (cm : CMap) : SameMap τ cm (cm.ren τ) := by
  refine ⟨bucket_ren inj cm, ?_⟩
  intro c
  simp only [CMap.all, CMap.ren, List.map_map, List.mem_flatten, List.mem_map]
  constructor
  · rintro ⟨_, ⟨p, hp, rfl⟩, hc⟩
    simp only [Function.comp, Bucket.all, Bucket.ren, ← List.map_append] at hc
    obtain ⟨d, hd, e⟩ := List.mem_map.mp hc
    exact ⟨d, ⟨_, ⟨p, hp, rfl⟩, hd⟩, e.symm⟩
  · rintro ⟨d, ⟨_, ⟨p, hp, rfl⟩, hd⟩, rfl⟩
    refine ⟨_, ⟨p, hp, rfl⟩, ?_⟩
    simp only [Function.comp, Bucket.all, Bucket.ren, ← List.map_append]
    exact List.mem_map_of_mem hd

mutual
theorem hasError_ren (τ : Nat → Pos) : ∀ n : Node, (n.ren τ).hasError = n.hasError
  | .mk id kind named extra err field sr er sb eb text children => by
    rw [Node.ren, Node.hasError, Node.hasError, kidsHaveError_ren τ children]
theorem kidsHaveError_ren (τ : Nat → Pos) : ∀ ns : List Node, kidsHaveError (renAll τ ns) = kidsHaveError ns
  | [] => rfl
  | n :: ns => by rw [renAll, kidsHaveError, kidsHaveError, hasError_ren τ n, kidsHaveError_ren τ ns]
end

/-- Trees with the same skeleton are formatted alike if they have no syntax errors. -/
theorem format_ren (inj : ∀ a b, (τ a).id = (τ b).id → a = b) (checks : Bool) (hs : skeleton checks root = skeleton checks (root.ren τ))
    (hn : root.ids.Nodup) (he : root.hasError = false) (depth : Nat) (cfg : Config) :
    formatTree checks depth cfg (root.ren τ) = formatTree checks depth cfg root := by
  unfold formatTree checkParsed
  rw [hasError_ren, he]
  simp only [Bool.false_eq_true, if_false]
  have := collect_ren inj checks "" none false [] [] root [] hs
  unfold commentMap
  rw [show (CMap.ren τ []) = [] from rfl] at this
  rw [this]
  cases hc : collect root [] with
  | error e => rfl
  | ok cm => exact enrich_ren checks hs (sameMap_ren inj cm) (sameText inj hs hn hc) depth cfg

/-! ### From equal skeletons to renamings -/

/-- Identity, position and text of a node. -/
def Node.pos (n : Node) : Pos := ⟨n.id, n.startRow, n.endRow, n.startByte, n.endByte, n.text⟩

mutual
/-- The ids of the first tree with the positions of the second one. -/
def Node.pairs : Node → Node → List (Nat × Pos)
  | .mk id _ _ _ _ _ _ _ _ _ _ cs, m => (id, m.pos) :: pairsOf cs m.children
/-- The ids of the first trees with the positions of the second ones. -/
def pairsOf : List Node → List Node → List (Nat × Pos)
  | [], _ => []
  | _ :: _, [] => []
  | n :: ns, m :: ms => n.pairs m ++ pairsOf ns ms
end

mutual
theorem pairs_spec (checks : Bool) : ∀ (n m : Node) (pk : String) (pf : Option String) (b : Bool) (l r : List Node) (pk' : String) (pf' : Option String)
    (b' : Bool) (l' r' : List Node), n.skel checks pk pf b l r = m.skel checks pk' pf' b' l' r' →
    (n.pairs m).map (·.1) = n.ids ∧ (n.pairs m).map (·.2.id) = m.ids ∧
    ∀ τ : Nat → Pos, (∀ x ∈ n.pairs m, τ x.1 = x.2) → n.ren τ = m
  | .mk id kind named extra err field sr er sb eb text children,
    .mk id' kind' named' extra' err' field' sr' er' sb' eb' text' children', pk, pf, b, l, r, pk', pf', b', l', r', h => by
    simp only [Node.skel, Skel.mk.injEq] at h
    obtain ⟨rfl, rfl, rfl, rfl, rfl, -, -, -, h⟩ := h
    obtain ⟨i1, i2, i3⟩ := pairsOf_spec checks children children' _ _ _ _ _ _ _ _ h
    refine ⟨?_, ?_, ?_⟩
    · rw [Node.pairs, Node.ids, List.map_cons]
      exact congrArg _ i1
    · rw [Node.pairs, Node.ids, List.map_cons]
      exact congrArg _ i2
    · intro τ ht
      rw [Node.pairs] at ht
      have h0 : τ id = _ := ht _ (List.mem_cons_self ..)
      have := i3 τ (fun x hx => ht x (List.mem_cons_of_mem _ hx))
      rw [Node.ren, this, h0]
      rfl
theorem pairsOf_spec (checks : Bool) : ∀ (ns ms : List Node) (pk : String) (pf : Option String) (b : Bool) (l : List Node) (pk' : String)
    (pf' : Option String) (b' : Bool) (l' : List Node), skels checks pk pf b l ns = skels checks pk' pf' b' l' ms →
    (pairsOf ns ms).map (·.1) = idsOf ns ∧ (pairsOf ns ms).map (·.2.id) = idsOf ms ∧
    ∀ τ : Nat → Pos, (∀ x ∈ pairsOf ns ms, τ x.1 = x.2) → renAll τ ns = ms
  | [], [], _, _, _, _, _, _, _, _, _ => ⟨rfl, rfl, fun _ _ => rfl⟩
  | [], _ :: _, _, _, _, _, _, _, _, _, h => by rw [skels, skels] at h; exact absurd h (by rintro ⟨⟩)
  | _ :: _, [], _, _, _, _, _, _, _, _, h => by rw [skels, skels] at h; exact absurd h (by rintro ⟨⟩)
  | n :: ns, m :: ms, _, _, _, _, _, _, _, _, h => by
    rw [skels, skels, List.cons.injEq] at h
    obtain ⟨a1, a2, a3⟩ := pairs_spec checks n m _ _ _ _ _ _ _ _ _ _ h.1
    obtain ⟨b1, b2, b3⟩ := pairsOf_spec checks ns ms _ _ _ _ _ _ _ _ h.2
    rw [pairsOf]
    refine ⟨?_, ?_, ?_⟩
    · rw [List.map_append, a1, b1, idsOf]
    · rw [List.map_append, a2, b2, idsOf]
    · intro τ ht
      rw [renAll, a3 τ (fun x hx => ht x (List.mem_append_left _ hx)), b3 τ (fun x hx => ht x (List.mem_append_right _ hx))]
end

/-- A renaming from pairs; other ids are moved beyond `m`. -/
def mkRen (m : Nat) (ps : List (Nat × Pos)) (i : Nat) : Pos :=
  match ps.find? (fun x => x.1 == i) with
  | some x => x.2
  | none => ⟨i + m + 1, 0, 0, 0, 0, []⟩

theorem mkRen_mem (m : Nat) : ∀ (ps : List (Nat × Pos)), (ps.map (·.1)).Nodup → ∀ x ∈ ps, mkRen m ps x.1 = x.2
  | [], _, x, hx => absurd hx (List.not_mem_nil)
  | p :: ps, h, x, hx => by
    rw [List.map_cons, List.nodup_cons] at h
    rcases List.mem_cons.mp hx with rfl | hx
    · simp [mkRen]
    · have hne : (p.1 == x.1) = false := by
        rw [beq_eq_false_iff_ne]
        intro e
        exact h.1 (e ▸ List.mem_map_of_mem hx)
      have := mkRen_mem m ps h.2 x hx
      rw [mkRen] at this ⊢
      simp only [List.find?_cons, hne]
      exact this

theorem second_inj : ∀ {ps : List (Nat × Pos)}, (ps.map (·.2.id)).Nodup → ∀ {x y}, x ∈ ps → y ∈ ps → x.2.id = y.2.id → x = y
  | [], _, _, _, hx, _, _ => absurd hx (List.not_mem_nil)
  | p :: ps, h, x, y, hx, hy, e => by
    rw [List.map_cons, List.nodup_cons] at h
    rcases List.mem_cons.mp hx with rfl | hx'
    · rcases List.mem_cons.mp hy with rfl | hy
      · rfl
      · exact absurd (e ▸ List.mem_map_of_mem (f := fun z : Nat × Pos => z.2.id) hy) h.1
    · rcases List.mem_cons.mp hy with rfl | hy'
      · exact absurd (e ▸ List.mem_map_of_mem (f := fun z : Nat × Pos => z.2.id) hx') h.1
      · exact second_inj h.2 hx' hy' e

theorem mkRen_inj {m : Nat} {ps : List (Nat × Pos)} (h2 : (ps.map (·.2.id)).Nodup) (hm : ∀ x ∈ ps, x.2.id ≤ m) (a b : Nat)
    (h : (mkRen m ps a).id = (mkRen m ps b).id) : a = b := by
  unfold mkRen at h
  cases ha : ps.find? (fun x => x.1 == a) with
  | none =>
    cases hb : ps.find? (fun x => x.1 == b) with
    | none =>
      rw [ha, hb] at h
      simp only at h
      omega
    | some y =>
      rw [ha, hb] at h
      have := hm y (List.mem_of_find?_eq_some hb)
      simp only at h
      omega
  | some x =>
    cases hb : ps.find? (fun x => x.1 == b) with
    | none =>
      rw [ha, hb] at h
      have := hm x (List.mem_of_find?_eq_some ha)
      simp only at h
      omega
    | some y =>
      rw [ha, hb] at h
      have e := second_inj h2 (List.mem_of_find?_eq_some ha) (List.mem_of_find?_eq_some hb) h
      have h1 := List.find?_some ha
      have h3 := List.find?_some hb
      simp only [beq_iff_eq] at h1 h3
      rw [← h1, ← h3, e]

theorem le_sum : ∀ {ns : List Nat} {i : Nat}, i ∈ ns → i ≤ ns.sum
  | [], _, h => absurd h (List.not_mem_nil)
  | n :: ns, i, h => by
    rw [List.sum_cons]
    rcases List.mem_cons.mp h with rfl | h
    · omega
    · have := le_sum h
      omega

/-- Trees with the same skeleton and with distinct ids are renamings of each other. -/
theorem exists_renaming {checks : Bool} {a b : Node} (h : skeleton checks a = skeleton checks b) (ha : a.ids.Nodup) (hb : b.ids.Nodup) :
    ∃ τ : Nat → Pos, (∀ i j, (τ i).id = (τ j).id → i = j) ∧ a.ren τ = b := by
  obtain ⟨p1, p2, p3⟩ := pairs_spec checks a b _ _ _ _ _ _ _ _ _ _ h
  refine ⟨mkRen b.ids.sum (a.pairs b), ?_, ?_⟩
  · refine mkRen_inj (p2 ▸ hb) ?_
    intro x hx
    exact le_sum (p2 ▸ List.mem_map_of_mem (f := fun z : Nat × Pos => z.2.id) hx)
  · exact p3 _ (mkRen_mem _ _ (p1 ▸ ha))

/-! ### Renamings that change nothing -/

theorem fix_of_map {α : Type} {f : α → α} : ∀ {l : List α}, l.map f = l → ∀ x ∈ l, f x = x
  | [], _, x, hx => by cases hx
  | a :: l, h, x, hx => by
    rw [List.map_cons, List.cons.injEq] at h
    rcases List.mem_cons.1 hx with rfl | hx
    · exact h.1
    · exact fix_of_map h.2 x hx

theorem loc_fixed {root : Node} {τ : Nat → Pos} (hτ : root.ren τ = root) {l : Loc} (h : In root l) : l.ren τ = l := by
  induction h with
  | root =>
    show (⟨root.ren τ, []⟩ : Loc) = _
    rw [hτ]
  | child hl hc ih =>
    refine fix_of_map ?_ _ hc
    rw [← loc_children, ih]

theorem comment_fixed {root : Node} {τ : Nat → Pos} (hτ : root.ren τ = root) (hi : ∀ i, (τ i).id = i) {cm : CMap}
    (h : commentMap root = .ok cm) : ∀ c ∈ cm.all, c.ren τ = c := by
  intro c hc
  obtain ⟨o, ho, rfl, _⟩ := comment_from h hc
  obtain ⟨l, hl, e⟩ := extras_in root ⟨root, []⟩ .root rfl o ho
  have := congrArg (fun m : Loc => m.node.text) (loc_fixed hτ hl)
  simp only [show (l.ren τ).node = l.node.ren τ from rfl, node_text, e] at this
  show ({ o.comment with id := (τ o.node.id).id, value := trimEnd (τ o.node.id).text } : Comment) = _
  rw [hi, this]
  rfl

theorem bucket_fixed {τ : Nat → Pos} {b : Bucket} (h : ∀ c ∈ b.all, c.ren τ = c) : b.ren τ = b := by
  have hl : ∀ cs : List Comment, (∀ c ∈ cs, c ∈ b.all) → cs.map (Comment.ren τ) = cs := by
    intro cs hcs
    rw [List.map_congr_left (fun c hc => h c (hcs c hc)), List.map_id']
  rw [Bucket.ren, hl b.pre (by simp +contextual [Bucket.all]), hl b.post (by simp +contextual [Bucket.all]),
    hl b.dangling (by simp +contextual [Bucket.all])]

theorem all_fixed {τ : Nat → Pos} {cm : CMap} (h : ∀ c ∈ cm.all, c.ren τ = c) (c : Comment) :
    c ∈ cm.all ↔ ∃ d ∈ cm.all, c = d.ren τ := by
  constructor
  · intro hc; exact ⟨c, hc, (h c hc).symm⟩
  · rintro ⟨d, hd, rfl⟩; rw [h d hd]; exact hd

end Afmt
