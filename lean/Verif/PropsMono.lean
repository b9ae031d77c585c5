import Verif.Mono
import Verif.Reparse
import Verif.PropsShape

/-!
# Build profile and stack: C53

`late` (Verif/Reparse.lean): no member of a body, except the first one, is in the first line of the source.
-/

namespace Afmt

/-! ### More stack, fewer checks -/

/-- **C53**: with a larger stack, or in a release build, the same text is printed. -/
theorem C53_more_stack_fewer_checks (root : Node) (cfg : Config) (c c' : Bool) (d d' : Nat) (out : Str) (hd : d ≤ d')
    (hc : c' = true → c = true) (h : formatTree c d cfg root = .ok out) : formatTree c' d' cfg root = .ok out := by
  unfold formatTree at h ⊢
  cases hp : checkParsed root with
  | error e => rw [hp] at h; cases h
  | ok r =>
    rw [hp] at h
    simp only at h ⊢
    cases hm : commentMap r with
    | error e => rw [hm] at h; cases h
    | ok cm =>
      rw [hm] at h
      simp only [enrichAndPrint] at h ⊢
      cases hn : Prog.new ⟨cm, c⟩ d .root (Loc.ofRoot r) with
      | error e => rw [hn] at h; cases h
      | ok p =>
        rw [hn] at h
        rw [new_below (cfg := ⟨cm, c⟩) (cfg' := ⟨cm, c'⟩) ⟨rfl, hc⟩ hd _ _ _ hn]
        exact h

/-- **C53**: whatever the build profile and the size of the stack, a tree has at most one formatted text. -/
theorem C53_one_text (root : Node) (cfg : Config) (c c' : Bool) (d d' : Nat) (out out' : Str)
    (h : formatTree c d cfg root = .ok out) (h' : formatTree c' d' cfg root = .ok out') : out = out' := by
  have h1 := C53_more_stack_fewer_checks root cfg c false d (max d d') out (Nat.le_max_left _ _) (fun h => nomatch h) h
  have h2 := C53_more_stack_fewer_checks root cfg c' false d' (max d d') out' (Nat.le_max_right _ _) (fun h => nomatch h) h'
  rw [h1] at h2
  exact Except.ok.inj h2

/-! ### When the checks do not matter -/

theorem lates_go (p : Loc) : ∀ lefts rest, lates p.kind p.isBody rest = true → ∀ l ∈ Loc.childrenGo p lefts rest,
    late p.kind l.node = true ∧ (p.isBody = true → l.node.named = true → ∀ s, l.nextNamedSibling = some s → s.startRow ≠ 0)
  | _, [], _, l, hl => by rw [Loc.childrenGo] at hl; cases hl
  | lefts, c :: rest, h, l, hl => by
    rw [lates, Bool.and_eq_true, Bool.and_eq_true] at h
    rw [Loc.childrenGo] at hl
    rcases List.mem_cons.1 hl with rfl | hl
    · refine ⟨h.1.1, ?_⟩
      intro hb hn s hs
      have h2 := h.1.2
      simp only at hn
      rw [hb, hn] at h2
      have hx := next_node ⟨c, ⟨p.node, lefts, rest⟩ :: p.path⟩
      rw [hs] at hx
      simp only [Loc.rightNodes, Option.map_some] at hx
      rw [← hx] at h2
      simp only [Bool.not_true, Bool.false_or, Option.all_some, bne_iff_ne] at h2
      exact h2
    · exact lates_go p (c :: lefts) rest h.2 l hl

theorem late_kids {l : Loc} (h : late l.pkind l.node = true) : lates l.kind l.isBody l.node.children = true := by
  obtain ⟨n, path⟩ := l
  cases n
  rw [late] at h
  exact h

theorem late_in {root : Node} (h : late "" root = true) {l : Loc} (hl : In root l) : late l.pkind l.node = true := by
  induction hl with
  | root => exact h
  | child hp hc ih =>
    rw [pkind_child hc]
    exact (lates_go _ [] _ (late_kids ih) _ hc).1

theorem trail_late {root : Node} (h : late "" root = true) (cm : CMap) {l p : Loc} (hp : In root p) (hb : p.isBody = true)
    (hc : l ∈ p.childrenVec) : Prog.New.hasTrailingNewline ⟨cm, true⟩ l = Prog.New.hasTrailingNewline ⟨cm, false⟩ l := by
  have hn := (List.mem_filter.mp (List.mem_filter.mp hc).1).2
  have hch := (List.mem_filter.mp (List.mem_filter.mp hc).1).1
  have := (lates_go p [] _ (late_kids (late_in h hp)) l hch).2 hb hn
  unfold Prog.New.hasTrailingNewline
  cases getBucket cm l.id with
  | error e => rfl
  | ok b =>
    simp only
    split
    · rfl
    · split
      · rfl
      · rename_i s hs
        rw [if_neg (this s hs), if_neg (this s hs)]

theorem enrich_late {root : Node} (hn : root.ids.Nodup) (h : late "" root = true) (cm : CMap) (hc : commentMap root = .ok cm)
    (depth : Nat) (cfg : Config) : enrichAndPrint true depth cfg root cm = enrichAndPrint false depth cfg root cm := by
  obtain ⟨p1, _, p3⟩ := pairs_spec true root root "" none false [] [] "" none false [] [] rfl
  let τ : Nat → Pos := fun i => { mkRen 0 (root.pairs root) i with id := i }
  have hτ : root.ren τ = root := by
    refine p3 τ ?_
    intro x hx
    have h1 := mkRen_mem 0 (root.pairs root) (p1 ▸ hn) x hx
    show ({ mkRen 0 (root.pairs root) x.1 with id := x.1 } : Pos) = x.2
    rw [h1, ← self_pairs root x hx]
  have hcr := fun c hc' => comment_fixed hτ (fun _ => rfl) (cm := cm) hc c hc'
  have hm : SameMap τ cm cm := by
    refine ⟨?_, ?_⟩
    · intro i
      show getBucket cm i = _
      cases hb : getBucket cm i with
      | error e => rfl
      | ok b => simp only [Except.map, bucket_fixed (fun c hc' => hcr c (getBucket_mem hb c hc'))]
    · exact all_fixed hcr
  have hnew := new_ren (root := root) (τ := τ) (cfg := ⟨cm, false⟩) (cfg' := ⟨cm, true⟩)
    (fun l hl => look τ (by rw [hτ]) hl)
    (fun l p hp hb hc => by
      have hl : In root l := .child hp (List.mem_filter.mp (List.mem_filter.mp hc).1).1
      rw [loc_fixed hτ hl]
      exact trail_late h cm hp hb hc) depth .root ⟨root, []⟩ .root trivial
  have e : enrichAndPrint true depth cfg (root.ren τ) cm = enrichAndPrint false depth cfg root cm := by
    unfold enrichAndPrint
    rw [show Loc.ofRoot (root.ren τ) = Loc.ren τ ⟨root, []⟩ from rfl, hnew]
    rw [show Loc.ofRoot root = (⟨root, []⟩ : Loc) from rfl]
    cases Prog.new ⟨cm, false⟩ depth .root ⟨root, []⟩ with
    | error e => rfl
    | ok p =>
      simp only [Except.map]
      rw [build_ren hm (sameText_id hcr)]
      split
      · rfl
      cases hb : Prog.build cfg.indentSize cm p with
      | error e => rfl
      | ok x => simp only [Except.map, renLog, missing_ren hm (sameText_id hcr) x.2 (build_sub _ _ _ _ _ hb)]
  rw [hτ] at e
  exact e

/-- **C53**: if no later member of a body is in the first line, development and release builds do the same, also when they
fail. -/
theorem C53_checks_irrelevant (root : Node) (hn : root.ids.Nodup) (h : late "" root = true) (depth : Nat) (cfg : Config) :
    formatTree true depth cfg root = formatTree false depth cfg root := by
  unfold formatTree
  cases hp : checkParsed root with
  | error e => rfl
  | ok r =>
    have : r = root := by
      unfold checkParsed at hp
      split at hp
      · split at hp
        · split at hp <;> cases hp
        · cases hp
      · exact (Except.ok.inj hp).symm
    subst this
    simp only
    cases hc : commentMap r with
    | error e => rfl
    | ok cm => exact enrich_late hn h cm hc depth cfg

/-! ### Examples -/

example : late "" exShape1 = true ∧ exShape1.ids.Nodup := by decide
example : formatTree true 20 ⟨80, 2⟩ exShape1 = formatTree false 20 ⟨80, 2⟩ exShape1 :=
  C53_checks_irrelevant _ (by decide) (by decide) _ _
/-- A stack that is too small makes a difference to success, not to the text. -/
example : formatTree false 3 ⟨80, 2⟩ exShape1 = .error .stackOverflow ∧
    formatTree false 1000 ⟨80, 2⟩ exShape1 = formatTree true 20 ⟨80, 2⟩ exShape1 := by
  refine ⟨by decide +kernel, ?_⟩
  cases h : formatTree true 20 ⟨80, 2⟩ exShape1 with
  | error e =>
    have : (formatTree true 20 ⟨80, 2⟩ exShape1).isOk = true := by decide +kernel
    rw [h] at this
    cases this
  | ok out => exact C53_more_stack_fewer_checks _ _ true false 20 1000 out (by omega) (fun h => nomatch h) h

/-- Example: `class A { Integer x; Integer y; }` on the first line. -/
def exRow0 : Node := exNode 1 "parser_output" 0 0 "" [
  exNode 2 "class_declaration" 0 0 "class A { Integer x; Integer y; }" [
    exTok 3 "class" 0, exField "name" (exNode 4 "identifier" 0 0 "A" []),
    exField "body" (exNode 5 "class_body" 0 0 "{ Integer x; Integer y; }" [exTok 6 "{" 0,
      exShapeField 10 0 "x" "Integer x;", exShapeField 20 0 "y" "Integer y;", exTok 8 "}" 0])]]

/-- **C53**, the hypothesis is needed: in a development build a class on one line panics, a release build prints it. -/
theorem C53_one_line_class : late "" exRow0 = false ∧ formatTree true 20 ⟨80, 2⟩ exRow0 = .error .arithmetic ∧
    formatTree false 20 ⟨80, 2⟩ exRow0 = .ok "class A {\n  Integer x;\n\n  Integer y;\n}\n".toList := by
  refine ⟨by decide, by decide +kernel, by decide +kernel⟩

end Afmt
