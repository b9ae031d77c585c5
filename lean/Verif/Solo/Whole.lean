import Verif.Solo.Spec
import Verif.Solo.New
import Verif.Solo.Collect
import Verif.Solo.Print
import Verif.FormatLemmas
import Verif.ShapeFrom
import Verif.PropsShape

/-!
# A file is the sum of its members
-/

namespace Afmt
namespace Solo
open Prog Prog.New

variable {m root : Node} {q : List Frame}

/-! ### Constructors -/

theorem in_ids {l : Loc} (h : In m l) : ∀ i ∈ l.node.ids, i ∈ m.ids := by
  induction h with
  | root => exact fun i h => h
  | child hl hc ih =>
    rename_i l c
    intro i hi
    refine ih i ?_
    have : c.node ∈ l.node.children := by
      have := List.mem_map_of_mem (f := Loc.node) hc
      rwa [show l.children = Loc.childrenGo l [] l.node.children from rfl, go_nodes] at this
    rw [ids_eq]
    exact .tail _ (mem_idsOf this hi)

theorem trail_graft {cm cm' : CMap} {checks : Bool} (h : ∀ i ∈ m.ids, cm'.get? i = cm.get? i) (l : Loc) (hl : Dn m l) :
    hasTrailingNewline ⟨cm', checks⟩ (graft q l) = hasTrailingNewline ⟨cm, checks⟩ l := by
  have hb : getBucket cm' (graft q l).id = getBucket cm l.id := by
    unfold getBucket
    rw [show (graft q l).id = l.id from rfl, h l.id (in_ids hl.1 _ (id_mem _))]
  unfold hasTrailingNewline
  simp only [hb, loc_nextNamedSibling l hl.2]
  cases getBucket cm l.id with
  | error e => rfl
  | ok b =>
    simp only
    cases b.post.getLast? with
    | some c => rfl
    | none =>
      simp only
      cases l.nextNamedSibling with
      | none => rfl
      | some s => rfl

theorem new_E {cm cm' : CMap} {checks : Bool} (h : ∀ i ∈ m.ids, cm'.get? i = cm.get? i) :
    ∀ fuel, E m q ⟨cm, checks⟩ ⟨cm', checks⟩ (Prog.new ⟨cm, checks⟩ fuel) (Prog.new ⟨cm', checks⟩ fuel)
  | 0 => ⟨fun _ _ _ => rfl, trail_graft h⟩
  | fuel + 1 => ⟨fun c _ hl => step_solo (new_E h fuel) c hl, trail_graft h⟩

/-- The kinds of members of a file. -/
def memberKind (k : String) : Bool :=
  k == "class_declaration" || k == "enum_declaration" || k == "trigger_declaration" || k == "interface_declaration"

theorem new_top {cm cm' : CMap} {checks : Bool} (h : ∀ i ∈ m.ids, cm'.get? i = cm.get? i) (hp : Punc.from (graft q ⟨m, []⟩) = none)
    (fuel : Nat) : Prog.new ⟨cm', checks⟩ fuel .rootMember (graft q ⟨m, []⟩) = Prog.new ⟨cm, checks⟩ fuel .rootMember ⟨m, []⟩ := by
  have hk : Ok m q ⟨m, []⟩ := ⟨.root, hp⟩
  cases fuel with
  | zero => rfl
  | succ fuel =>
    show rootMember _ _ = rootMember _ _
    unfold rootMember dispatch
    rw [graft_kind]
    split
    · rename_i e he
      have he := List.mem_of_find?_eq_some he
      cases fuel with
      | zero => rfl
      | succ fuel =>
        simp only [List.mem_cons, List.not_mem_nil, or_false] at he
        rcases he with rfl | rfl | rfl | rfl
        · exact classDeclaration_solo (new_E h fuel) hk
        · exact enumDeclaration_solo (new_E h fuel) hk
        · exact triggerDeclaration_solo (new_E h fuel) hk
        · exact interfaceDeclaration_solo (new_E h fuel) hk
    · rfl

theorem top_kind {cfg : Cfg} {fuel : Nat} {l : Loc} {p : Prog} (h : Prog.new cfg fuel .rootMember l = .ok p) : memberKind l.kind = true := by
  cases fuel with
  | zero => cases h
  | succ fuel =>
    have h : rootMember (Prog.new cfg fuel) l = .ok p := h
    unfold rootMember dispatch at h
    split at h
    · rename_i e he
      have h1 := List.mem_of_find?_eq_some he
      have h2 := List.find?_some he
      simp only [List.mem_cons, List.not_mem_nil, or_false] at h1
      rw [beq_iff_eq] at h2
      rw [← h2]
      rcases h1 with rfl | rfl | rfl | rfl <;> rfl
    · cases h

theorem memberKind_punc {k : String} (h : memberKind k = true) : isPunctuationKind k = false := by
  unfold memberKind at h
  simp only [Bool.or_eq_true, beq_iff_eq] at h
  rcases h with ((rfl | rfl) | rfl) | rfl <;> decide

/-! ### Comments -/

/-- Collect from several trees. -/
def collects : List Node → CMap → R CMap
  | [], cm => .ok cm
  | m :: ms, cm => match collect m cm with
    | .error e => .error e
    | .ok cm => collects ms cm

/-- The last tree. -/
def lastOf (l : Option (Nat × Nat)) : List Node → Option (Nat × Nat)
  | [] => l
  | m :: ms => lastOf (some (m.id, m.endRow)) ms

theorem collects_kids : ∀ (ms lefts : List Node) (cm cm' : CMap) (last : Option (Nat × Nat)), (∀ m ∈ ms, m.named = true ∧ m.extra = false) →
    collects ms cm = .ok cm' → collectKids lefts ms ⟨cm, [], last⟩ = .ok ⟨cm', [], lastOf last ms⟩
  | [], lefts, cm, cm', last, _, h => by cases h; unfold collectKids; rfl
  | m :: ms, lefts, cm, cm', last, hm, h => by
    unfold collects at h
    split at h
    · cases h
    · rename_i c1 h1
      have ih := collects_kids ms (m :: lefts) c1 cm' (some (m.id, m.endRow)) (fun x hx => hm x (.tail _ hx)) h
      unfold collectKids
      simp only [(hm m (.head _)).1, (hm m (.head _)).2, Bool.false_eq_true, if_false, Bool.true_or, if_true, flushPending, h1, bind,
        Except.bind, ih, lastOf]

theorem lastOf_mem : ∀ (ms : List Node) (l : Option (Nat × Nat)), ms ≠ [] → ∃ m ∈ ms, lastOf l ms = some (m.id, m.endRow)
  | [], _, h => absurd rfl h
  | [m], l, _ => ⟨m, .head _, rfl⟩
  | m :: m' :: ms, l, _ => by
    obtain ⟨x, hx, e⟩ := lastOf_mem (m' :: ms) (some (m.id, m.endRow)) (by simp)
    exact ⟨x, .tail _ hx, e⟩

theorem collects_ok (b0 : CMap) (r : Nat) : ∀ (ms : List Node) (b : CMap), (∀ m ∈ ms, ∃ a, collect m b0 = .ok a) → (idsOf ms).Nodup → r ∉ idsOf ms →
    (∀ i, i ∈ idsOf ms ∨ i = r → b0.get? i = b.get? i) →
    ∃ b', collects ms b = .ok b' ∧ (∀ m ∈ ms, ∀ a, collect m b0 = .ok a → Agree (fun i => i ∈ m.ids ∨ i = r) a b') ∧
      ∀ i, i ∉ idsOf ms → b'.get? i = b.get? i
  | [], b, _, _, _, _ => ⟨b, rfl, fun _ hm => absurd hm List.not_mem_nil, fun _ _ => rfl⟩
  | m :: ms, b, ha, hn, hr, hb => by
    rw [idsOf] at hn hr
    rw [List.nodup_append] at hn
    rw [List.mem_append, not_or] at hr
    obtain ⟨a, hA⟩ := ha m (.head _)
    have hb1 : Agree (fun i => i ∈ m.ids ∨ i = r) b0 b := fun i hi =>
      hb i (hi.elim (fun h => .inl (by rw [idsOf]; exact List.mem_append_left _ h)) .inr)
    obtain ⟨b1, h1, h2⟩ := collect_agree m b0 a hA _ b hb1
    have hf := collect_frame m b b1 h1
    obtain ⟨b', h3, h4, h5⟩ := collects_ok b0 r ms b1 (fun x hx => ha x (.tail _ hx)) hn.2.1 hr.2 (by
      intro i hi
      have hni : i ∉ m.ids := by
        rcases hi with hi | rfl
        · exact fun h => hn.2.2 i h i hi rfl
        · exact hr.1
      rw [hf i hni]
      exact hb i (hi.elim (fun h => .inl (by rw [idsOf]; exact List.mem_append_right _ h)) .inr))
    refine ⟨b', ?_, ?_, ?_⟩
    · unfold collects; rw [h1]; exact h3
    · intro x hx a' ha' i hi
      cases hx with
      | head =>
        rw [hA, Except.ok.injEq] at ha'
        subst ha'
        rw [h2 i hi, h5 i (by
          rcases hi with hi | rfl
          · exact fun h => hn.2.2 i hi i h rfl
          · exact hr.2)]
      | tail _ hx => exact h4 x hx a' ha' i hi
    · intro i hi
      rw [idsOf, List.mem_append, not_or] at hi
      rw [h5 i hi.2, hf i hi.1]

theorem get_touch {cm : CMap} {i : Nat} {b : Bucket} (h : cm.get? i = some b) (j : Nat) : (cm.update (Bucket.addPost []) i).get? j = cm.get? j := by
  rw [get?_update]
  split
  · rename_i e
    subst e
    rw [h]
    simp [Bucket.addPost]
  · rfl

/-! ### Programs -/

/-- One map is a part of the other. -/
def Sub (a b : CMap) : Prop := ∀ i x, a.get? i = some x → b.get? i = some x

theorem Sub.bucket {a b : CMap} (h : Sub a b) {i : Nat} {x : Bucket} (hx : getBucket a i = .ok x) : getBucket b i = .ok x := by
  unfold getBucket at hx ⊢
  cases ha : a.get? i with
  | none => rw [ha] at hx; cases hx
  | some y =>
    rw [ha] at hx
    rw [h i y ha]
    exact hx

mutual
theorem build_sub {a b : CMap} (h : Sub a b) (k : Nat) : ∀ (p : Prog) (r : Doc × List Comment), p.build k a = .ok r → p.build k b = .ok r
  | .txt s, r, e => by simpa only [Prog.build] using e
  | .nl, r, e => by simpa only [Prog.build] using e
  | .softline, r, e => by simpa only [Prog.build] using e
  | .maybeline, r, e => by simpa only [Prog.build] using e
  | .forceBreak, r, e => by simpa only [Prog.build] using e
  | .sep _, r, e => by simpa only [Prog.build] using e
  | .fail _, r, e => by simpa only [Prog.build] using e
  | .concat ps, r, e => by
    simp only [Prog.build] at e ⊢
    cases hx : Prog.builds k a ps with
    | error _ => rw [hx] at e; cases e
    | ok x => rw [hx] at e; rw [builds_sub h k ps x hx]; exact e
  | .group p, r, e => by
    simp only [Prog.build] at e ⊢
    cases hx : Prog.build k a p with
    | error _ => rw [hx] at e; cases e
    | ok x => rw [hx] at e; rw [build_sub h k p x hx]; exact e
  | .indent p, r, e => by
    simp only [Prog.build] at e ⊢
    cases hx : Prog.build k a p with
    | error _ => rw [hx] at e; cases e
    | ok x => rw [hx] at e; rw [build_sub h k p x hx]; exact e
  | .dedent p, r, e => by
    simp only [Prog.build] at e ⊢
    cases hx : Prog.build k a p with
    | error _ => rw [hx] at e; cases e
    | ok x => rw [hx] at e; rw [build_sub h k p x hx]; exact e
  | .pre i, r, e => by
    simp only [Prog.build] at e ⊢
    cases hx : getBucket a i with
    | error _ => rw [hx] at e; cases e
    | ok x => rw [hx] at e; rw [h.bucket hx]; exact e
  | .post i, r, e => by
    simp only [Prog.build] at e ⊢
    cases hx : getBucket a i with
    | error _ => rw [hx] at e; cases e
    | ok x => rw [hx] at e; rw [h.bucket hx]; exact e
  | .dangling i, r, e => by
    simp only [Prog.build] at e ⊢
    cases hx : getBucket a i with
    | error _ => rw [hx] at e; cases e
    | ok x => rw [hx] at e; rw [h.bucket hx]; exact e
  | .rootDangling i, r, e => by
    simp only [Prog.build] at e ⊢
    cases hx : getBucket a i with
    | error _ => rw [hx] at e; cases e
    | ok x => rw [hx] at e; rw [h.bucket hx]; exact e
  | .punct i, r, e => by
    simp only [Prog.build] at e ⊢
    cases hx : getBucket a i.id with
    | error _ => rw [hx] at e; cases e
    | ok x => rw [hx] at e; rw [h.bucket hx]; exact e
  | .ifDangling i p q, r, e => by
    simp only [Prog.build] at e ⊢
    cases hx : getBucket a i with
    | error _ => rw [hx] at e; cases e
    | ok x =>
      rw [hx] at e
      rw [h.bucket hx]
      simp only at e ⊢
      split
      · rename_i hh; rw [if_pos hh] at e; exact build_sub h k p r e
      · rename_i hh; rw [if_neg hh] at e; exact build_sub h k q r e
theorem builds_sub {a b : CMap} (h : Sub a b) (k : Nat) : ∀ (ps : List Prog) (r : List Doc × List Comment), Prog.builds k a ps = .ok r → Prog.builds k b ps = .ok r
  | [], r, e => by simpa only [Prog.builds] using e
  | p :: ps, r, e => by
    simp only [Prog.builds] at e ⊢
    cases hx : Prog.build k a p with
    | error _ => rw [hx] at e; cases e
    | ok x =>
      rw [hx] at e
      rw [build_sub h k p x hx]
      simp only at e ⊢
      cases hy : Prog.builds k a ps with
      | error _ => rw [hy] at e; cases e
      | ok y => rw [hy] at e; rw [builds_sub h k ps y hy]; exact e
end

/-! ### One member -/

theorem only_children : (root.only m).children = [m] := by cases root; rfl
theorem only_id : (root.only m).id = root.id := by cases root; rfl
theorem only_kind : (root.only m).kind = root.kind := by cases root; rfl
theorem only_visited : isVisited (root.only m).named (root.only m).extra (root.only m).kind = isVisited root.named root.extra root.kind := by
  cases root; rfl
theorem only_error : (root.only m).hasError = false ↔ root.err = false ∧ m.hasError = false := by
  cases root
  simp [Node.only, Node.hasError, kidsHaveError, Node.err]

theorem root_error : root.hasError = false ↔ root.err = false ∧ kidsHaveError root.children = false := by
  cases root
  simp [Node.hasError, Node.err, Node.children]

theorem collect_unvisited {n : Node} {cm : CMap} (h : isVisited n.named n.extra n.kind = false) : collect n cm = .ok cm := collect_skip h

/-- The map before the first member. -/
def base (root : Node) : CMap := CMap.update (fun b => b) root.id []

theorem base_get (i : Nat) : (base root).get? i = if i = root.id then some Bucket.empty else none := by
  unfold base
  rw [get?_update]
  rfl

/-- The comment map of a file with one member. -/
theorem only_map {cm : CMap} (hv : isVisited root.named root.extra root.kind = true) (hm : m.named = true ∧ m.extra = false)
    (h : commentMap (root.only m) = .ok cm) : ∃ a, collect m (base root) = .ok a ∧ cm = a.update (Bucket.addPost []) m.id := by
  cases ha : collect m (base root) with
  | ok a =>
    refine ⟨a, rfl, ?_⟩
    have h1 : collects [m] (base root) = .ok a := by simp only [collects, ha]
    have h2 := collects_kids [m] [] (base root) a none (by intro x hx; rw [List.mem_singleton] at hx; exact hx ▸ hm) h1
    have h3 := collect_node (n := root.only m) (cm := []) (st := ⟨a, [], lastOf none [m]⟩) (by rw [only_visited]; exact hv)
      (by rw [only_children]; simp) (by rw [only_children, only_id]; exact h2)
    unfold commentMap at h
    rw [h3, Except.ok.injEq] at h
    rw [← h]
    rfl
  | error e =>
    exfalso
    obtain ⟨id, kind, named, extra, err, field, sr, er, sb, eb, text, children⟩ := root
    simp only [Node.named, Node.extra, Node.kind] at hv
    unfold commentMap at h
    unfold Node.only collect at h
    simp only [hv, Bool.not_true, Bool.false_eq_true, if_false] at h
    unfold collectKids at h
    simp only [base, Node.id] at ha
    simp only [hm.1, hm.2, Bool.false_eq_true, if_false, Bool.true_or, if_true, flushPending, ha, bind, Except.bind] at h
    cases h

/-- What it takes to format a member alone. -/
structure One (checks : Bool) (k w fuel : Nat) (root m : Node) (out : Str) (cm : CMap) (p : Prog) (d : Doc) (log : List Comment) : Prop where
  map : commentMap (root.only m) = .ok cm
  new : Prog.new ⟨cm, checks⟩ fuel .rootMember ⟨m, []⟩ = .ok p
  build : p.build k cm = .ok (d, log)
  print : out = alone w d

/-- The text, the comment map and the printed comments of a file, before the check that no comment is missing. -/
structure Ran (checks : Bool) (depth : Nat) (cfg : Config) (n : Node) (out : Str) (cm : CMap) (log : List Comment) : Prop where
  noError : n.hasError = false
  map : commentMap n = .ok cm
  indent : cfg.indentSize ≠ 0
  run : ∃ P d, Prog.new ⟨cm, checks⟩ depth .root (Loc.ofRoot n) = .ok P ∧ P.build cfg.indentSize cm = .ok (d, log) ∧ out = layout cfg.maxWidth d

theorem ran_of_ok {checks : Bool} {depth : Nat} {cfg : Config} {n : Node} {out : Str} (h : formatTree checks depth cfg n = .ok out) :
    ∃ cm log, Ran checks depth cfg n out cm log ∧ ∀ c ∈ cm.all, c ∈ log := by
  obtain ⟨he, cm, hcm, h⟩ := formatTree_ok.1 h
  unfold enrichAndPrint at h
  cases hn : Prog.new ⟨cm, checks⟩ depth .root (Loc.ofRoot n) with
  | error e => rw [hn] at h; cases h
  | ok P =>
    rw [hn] at h
    simp only at h
    by_cases hk : cfg.indentSize = 0
    · rw [if_pos hk] at h; cases h
    rw [if_neg hk] at h
    cases hb : P.build cfg.indentSize cm with
    | error e => rw [hb] at h; cases h
    | ok x =>
      obtain ⟨d, log⟩ := x
      rw [hb] at h
      simp only [prettyPrint_eq] at h
      split at h
      · rename_i hmiss
        rw [Except.ok.injEq] at h
        exact ⟨cm, log, ⟨he, hcm, hk, P, d, hn, hb, h.symm⟩, (noMissing_iff cm log).1 hmiss⟩
      · cases h

theorem Ran.ok {checks : Bool} {depth : Nat} {cfg : Config} {n : Node} {out : Str} {cm : CMap} {log : List Comment}
    (h : Ran checks depth cfg n out cm log) (hc : ∀ c ∈ cm.all, c ∈ log) : formatTree checks depth cfg n = .ok out := by
  obtain ⟨P, d, h1, h2, h3⟩ := h.run
  rw [formatTree_ok]
  refine ⟨h.noError, cm, h.map, ?_⟩
  unfold enrichAndPrint
  simp only [h1, h.indent, if_false, h2, prettyPrint_eq, (noMissing_iff cm log).2 hc, if_true, h3]

theorem Ran.det {checks : Bool} {depth : Nat} {cfg : Config} {n : Node} {out out' : Str} {cm cm' : CMap} {log log' : List Comment}
    (h : Ran checks depth cfg n out cm log) (h' : Ran checks depth cfg n out' cm' log') : out = out' ∧ cm = cm' ∧ log = log' := by
  have e := h.map.symm.trans h'.map
  rw [Except.ok.injEq] at e
  subst e
  obtain ⟨P, d, h1, h2, h3⟩ := h.run
  obtain ⟨P', d', h1', h2', h3'⟩ := h'.run
  have e := h1.symm.trans h1'
  rw [Except.ok.injEq] at e
  subst e
  have e := h2.symm.trans h2'
  rw [Except.ok.injEq, Prod.mk.injEq] at e
  rw [h3, h3', e.1]
  exact ⟨rfl, rfl, e.2⟩

theorem layout_alone (w : Nat) (d : Doc) : layout w (.concat [.concat [d], nl]) = alone w d := by
  have h : (pr w d 0 false [⟨nl, 0, false⟩] PSt.init) = pr w d 0 false [] PSt.init := pr_rest w ((stops_nl 0 false []).same stops_nil) d 0 false _
  simp only [layout, alone, pr, prs, List.map_cons, List.map_nil, List.nil_append, List.cons_append, List.append_nil, h]
  simp only [nl, pr, PSt.flush, spaces, List.replicate_zero, List.append_nil]

theorem one_of_ran {checks : Bool} {depth : Nat} {cfg : Config} {out : Str} {cm : CMap} {log : List Comment} (hm : m.named = true ∧ m.extra = false)
    (hr : root.id ∉ m.ids) (h : Ran checks depth cfg (root.only m) out cm log) :
    root.kind = "parser_output" ∧ isVisited root.named root.extra root.kind = true ∧
      ∃ fuel, depth = fuel + 1 ∧ ∃ p d, One checks cfg.indentSize cfg.maxWidth fuel root m out cm p d log := by
  obtain ⟨he, hcm, hk, P, D, hn, h, hout⟩ := h
  cases depth with
  | zero => cases hn
  | succ fuel =>
    have hn : Prog.New.root ⟨cm, checks⟩ (Prog.new ⟨cm, checks⟩ fuel) (Loc.ofRoot (root.only m)) = .ok P := hn
    have hvec : (Loc.ofRoot (root.only m)).childrenVec = [graft [⟨root.only m, [], []⟩] ⟨m, []⟩] := by
      unfold Loc.childrenVec Loc.namedChildren Loc.children Loc.ofRoot
      simp only [only_children, Loc.childrenGo]
      simp [List.filter, Loc.named, Loc.extra, hm.1, hm.2, graft]
    unfold Prog.New.root assertCheck at hn
    by_cases hkind : (Loc.ofRoot (root.only m)).kind == "parser_output"
    · rw [if_pos hkind, hvec] at hn
      have hkind : root.kind = "parser_output" := by
        rw [beq_iff_eq] at hkind
        rw [← only_kind (m := m)]
        exact hkind
      simp only [bind, Except.bind, mapR, bodyMember] at hn
      rw [new_top (cm := cm) (fun _ _ => rfl) rfl fuel] at hn
      cases hp : Prog.new ⟨cm, checks⟩ fuel .rootMember ⟨m, []⟩ with
      | error e => rw [hp] at hn; cases hn
      | ok p =>
        rw [hp] at hn
        simp only at hn
        cases ht : hasTrailingNewline ⟨cm, checks⟩ (graft [⟨root.only m, [], []⟩] ⟨m, []⟩) with
        | error e => rw [ht] at hn; cases hn
        | ok t =>
          rw [ht] at hn
          simp only [Except.ok.injEq] at hn
          subst hn
          have hid : (Loc.ofRoot (root.only m)).id = root.id := only_id
          rw [hid] at h
          cases hv : isVisited root.named root.extra root.kind with
          | false =>
            exfalso
            have : cm = [] := by
              unfold commentMap at hcm
              rw [collect_skip (by rw [only_visited]; exact hv), Except.ok.injEq] at hcm
              exact hcm.symm
            subst this
            simp [Prog.build, getBucket, CMap.get?] at h
          | true =>
            obtain ⟨a, ha, hcma⟩ := only_map hv hm hcm
            have hmid : root.id ≠ m.id := fun e => hr (e ▸ id_mem m)
            have hg : getBucket cm root.id = .ok Bucket.empty := by
              unfold getBucket
              rw [hcma, get_ne (fun e => hmid e.symm), collect_frame m _ a ha _ hr, base_get, if_pos rfl]
            simp only [Prog.build, hg, Bucket.empty, ne_eq, not_true, if_false, Prog.builds, intersperseBody, bodyParts] at h
            cases hb : p.build cfg.indentSize cm with
            | error e => rw [hb] at h; cases h
            | ok x =>
              obtain ⟨d, log'⟩ := x
              rw [hb] at h
              simp only [List.append_nil, Except.ok.injEq, Prod.mk.injEq] at h
              obtain ⟨rfl, rfl⟩ := h
              exact ⟨hkind, rfl, fuel, rfl, p, d, hcm, hp, hb, hout.trans (layout_alone _ d)⟩
    · rw [if_neg hkind] at hn
      cases hn

end Solo
end Afmt
