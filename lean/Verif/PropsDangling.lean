import Verif.PropsLoss
import Verif.PropsCollect

/-!
# C60: a comment in an empty list does not remove the list

A comment in a node without other children, like the one in `f(/* c */)`, is printed in place of the node: the
parentheses or braces around it disappear.  Bodies of classes, interfaces, enums, constructors and blocks keep their braces.
-/

namespace Afmt.Gram
open Prog New

/-- A comment without siblings that can own it dangles in its parent. -/
theorem dangles {root : Node} {cm : CMap} (hc : root.Closed) (hn : root.named = true) (he : root.extra = false)
    (hcm : commentMap root = .ok cm) {o : Occ} (ho : o ∈ root.extras) (hs : ∀ s ∈ o.lefts ++ o.rights, s.associable = false) :
    ∃ b, getBucket cm o.parent = .ok b ∧ b.dangling ≠ [] := by
  have hown : o.owner = .dangling o.parent := by
    have hl : o.lefts.find? (·.associable) = none := by
      rw [List.find?_eq_none]
      intro s h
      rw [hs s (List.mem_append_left _ h)]
      simp
    have hr : o.rights.find? (·.associable) = none := by
      rw [List.find?_eq_none]
      intro s h
      rw [hs s (List.mem_append_right _ h)]
      simp
    rw [Occ.owner, hl]
    simp [farOwner, hl, hr]
  have hmem : o.comment ∈ cm.slot (.dangling o.parent) := by
    rw [(C14_owner root hc hn he cm hcm (.dangling o.parent)).mem_iff, List.mem_map]
    exact ⟨_, List.mem_filter.2 ⟨ho, by simp [hown]⟩, rfl⟩
  cases hg : cm.get? o.parent with
  | none => simp [CMap.slot, hg] at hmem
  | some b =>
    simp only [CMap.slot, hg, Option.map_some, Option.getD_some] at hmem
    exact ⟨b, by simp [getBucket, hg], List.ne_nil_of_mem hmem⟩

theorem bind_ok {α β : Type} {r : R α} {f : α → R β} {b : β} (h : (r >>= f) = .ok b) : ∃ a, r = .ok a ∧ f a = .ok b := by
  cases r with
  | error e => cases h
  | ok a => exact ⟨a, rfl, h⟩

theorem bwcp_dangling {k : Nat} {cm : CMap} {n : Loc} {b : Bucket} (hb : getBucket cm n.id = .ok b) (hd : b.dangling ≠ [])
    (ms ms' : List Prog) : (bwcp n ms).build k cm = (bwcp n ms').build k cm := by
  simp [bwcp, withCommentsAndPunc, Prog.build, Prog.builds, hb, hd]

/-- **C60 is false for all lists**: if an argument list, a parameter list, or the initialiser of an array or a map has no
elements but a comment, what is printed for it (for all trees, all indent sizes, both profiles) is the same as for a node
without any code: the comment and the punctuation after the node, no parentheses or braces. -/
theorem C60_list_with_comment_lost (checks : Bool) (root : Node) (cm : CMap) (hc : root.Closed) (hn : root.named = true)
    (he : root.extra = false) (hcm : commentMap root = .ok cm) (o : Occ) (ho : o ∈ root.extras)
    (hs : ∀ s ∈ o.lefts ++ o.rights, s.associable = false) (fuel : Nat) (n : Loc) (hi : n.id = o.parent) (c : Cls)
    (hk : c ∈ [Cls.argumentList, .formalParameters, .arrayInitializer, .mapInitializer]) (p : Prog)
    (h : Prog.new ⟨cm, checks⟩ fuel c n = .ok p) (k : Nat) : p.build k cm = (bwcp n []).build k cm := by
  obtain ⟨b, hb, hd⟩ := dangles hc hn he hcm ho hs
  rw [← hi] at hb
  cases fuel with
  | zero => cases h
  | succ fuel =>
    have key : ∃ ms, p = bwcp n ms := by
      simp only [List.mem_cons, List.not_mem_nil, or_false] at hk
      rcases hk with rfl | rfl | rfl | rfl
      · rw [Prog.new] at h
        obtain ⟨x, _, h⟩ := bind_ok h
        cases h
        exact ⟨_, rfl⟩
      · rw [Prog.new] at h
        obtain ⟨y, _, h⟩ := bind_ok h
        obtain ⟨x, _, h⟩ := bind_ok h
        cases h
        exact ⟨_, rfl⟩
      · rw [Prog.new] at h
        obtain ⟨y, _, h⟩ := bind_ok h
        obtain ⟨x, _, h⟩ := bind_ok h
        cases h
        exact ⟨_, rfl⟩
      · rw [Prog.new] at h
        obtain ⟨y, _, h⟩ := bind_ok h
        obtain ⟨x, _, h⟩ := bind_ok h
        cases h
        exact ⟨_, rfl⟩
    obtain ⟨ms, rfl⟩ := key
    exact bwcp_dangling hb hd ms []

/-- **C60** for bodies: the braces stay, with the comments between them.  Missing for the full statement: it is false for
lists, see `C60_list_with_comment_lost`. -/
theorem C60_bodies_keep_braces_partial (checks : Bool) (root : Node) (cm : CMap) (hc : root.Closed) (hn : root.named = true)
    (he : root.extra = false) (hcm : commentMap root = .ok cm) (o : Occ) (ho : o ∈ root.extras)
    (hs : ∀ s ∈ o.lefts ++ o.rights, s.associable = false) (fuel : Nat) (n : Loc) (hi : n.id = o.parent) (c : Cls)
    (hk : c ∈ [Cls.classBody, .block, .interfaceBody, .enumBody, .constructorBody]) (p : Prog)
    (h : Prog.new ⟨cm, checks⟩ fuel c n = .ok p) (k : Nat) :
    p.build k cm = (Prog.concat [.pre n.id,
      .concat [.txt ['{'], .indent .nl, .indent (.dangling n.id), .nl, .txt ['}']]]).build k cm := by
  obtain ⟨b, hb, hd⟩ := dangles hc hn he hcm ho hs
  rw [← hi] at hb
  cases fuel with
  | zero => cases h
  | succ fuel =>
    have key : ∃ q, p = .concat [.pre n.id, .ifDangling n.id (danglingBracket n.id) q] := by
      simp only [List.mem_cons, List.not_mem_nil, or_false] at hk
      rcases hk with rfl | rfl | rfl | rfl | rfl
      · rw [Prog.new] at h
        obtain ⟨y, _, h⟩ := bind_ok h
        obtain ⟨x, _, h⟩ := bind_ok h
        cases h
        exact ⟨_, rfl⟩
      · rw [Prog.new] at h
        obtain ⟨y, _, h⟩ := bind_ok h
        obtain ⟨x, _, h⟩ := bind_ok h
        cases h
        exact ⟨_, rfl⟩
      · rw [Prog.new] at h
        obtain ⟨y, _, h⟩ := bind_ok h
        obtain ⟨x, _, h⟩ := bind_ok h
        cases h
        exact ⟨_, rfl⟩
      · rw [Prog.new] at h
        obtain ⟨y, _, h⟩ := bind_ok h
        obtain ⟨x, _, h⟩ := bind_ok h
        cases h
        exact ⟨_, rfl⟩
      · rw [Prog.new] at h
        have h : New.constructorBody _ _ n = .ok p := h
        unfold New.constructorBody at h
        obtain ⟨y, _, h⟩ := bind_ok h
        cases h
        exact ⟨_, rfl⟩
    obtain ⟨q, rfl⟩ := key
    simp [danglingBracket, Prog.build, Prog.builds, hb, hd, t]

/-! ### Whole files -/

/-- The tree is the tree of a source with the given code and the given comments, without errors, and is formatted as `out`. -/
structure Shows (root : Node) (src : String) (comments : List String) (out : String) : Prop where
  parsed : Parsed root
  noError : root.hasError = false
  source : (code root).map (·.2) = ink src.toList
  comments : root.extras.map (fun o => o.node.text) = comments.map String.toList
  formats : formatTree true 60 ⟨80, 2⟩ root = .ok out.toList

/-- `f(/* c */);` -/
def exLonely : Node := methodOf [nd "expression_statement" [nd "method_invocation" [exField "name" (idn "f"),
  exField "arguments" (nd "argument_list" [tk "(", exComment 0 false 1 "/* c */", tk ")"])], tk ";"]]

theorem exLonely_comment : ∃ o ∈ exLonely.extras, (∀ s ∈ o.lefts ++ o.rights, s.associable = false) ∧
    o.node.text = "/* c */".toList := by
  have h : exLonely.extras.any (fun o => (o.lefts ++ o.rights).all (fun s => !s.associable) && o.node.text == "/* c */".toList) = true := by
    decide +kernel
  obtain ⟨o, ho, h⟩ := List.any_eq_true.1 h
  rw [Bool.and_eq_true, List.all_eq_true] at h
  exact ⟨o, ho, fun s hs => by simpa using h.1 s hs, by simpa using h.2⟩

/-- The hypotheses of `C60_list_with_comment_lost` hold. -/
example (checks : Bool) (cm : CMap) (hcm : commentMap exLonely = .ok cm) : ∃ i, ∀ (fuel : Nat) (n : Loc), n.id = i → ∀ p,
    Prog.new ⟨cm, checks⟩ fuel .argumentList n = .ok p → ∀ k, p.build k cm = (bwcp n []).build k cm := by
  obtain ⟨o, ho, hs, _⟩ := exLonely_comment
  exact ⟨o.parent, fun fuel n hi p h k => C60_list_with_comment_lost checks exLonely cm (closedB_iff _ (by decide)) rfl rfl hcm o ho hs
    fuel n hi .argumentList (.head _) p h k⟩

/-- **C60 is false**: a method call turns into a variable. -/
theorem C60_call_parentheses_lost : Shows exLonely "class A { void m() { f(); } }" ["/* c */"]
    "class A {\n  void m() {\n    f/* c */;\n  }\n}\n" :=
  ⟨⟨closedB_iff _ (by decide), by decide, by decide⟩, by decide, by decide +kernel, by decide +kernel, by decide +kernel⟩

/-- `void m(/* c */) { }` -/
def exLonelyParam : Node := classOf [] [nd "method_declaration" [
  exField "type" (lf "void_type" "void"), exField "name" (idn "m"),
  exField "parameters" (nd "formal_parameters" [tk "(", exComment 0 false 1 "/* c */", tk ")"]),
  exField "body" (nd "block" [tk "{", tk "}"])]]

/-- **C60 is false**: a method loses its parameter list, which is no Apex. -/
theorem C60_parameter_parentheses_lost : Shows exLonelyParam "class A { void m() { } }" ["/* c */"]
    "class A {\n  void m/* c */ {\n  }\n}\n" :=
  ⟨⟨closedB_iff _ (by decide), by decide, by decide⟩, by decide, by decide +kernel, by decide +kernel, by decide +kernel⟩

/-- `void m() { /* c */ }` -/
def exLonelyBlock : Node := methodOf [exComment 0 false 1 "/* c */"]

theorem exLonelyBlock_comment : ∃ o ∈ exLonelyBlock.extras, ∀ s ∈ o.lefts ++ o.rights, s.associable = false := by
  have h : exLonelyBlock.extras.any (fun o => (o.lefts ++ o.rights).all (fun s => !s.associable)) = true := by decide +kernel
  obtain ⟨o, ho, h⟩ := List.any_eq_true.1 h
  rw [List.all_eq_true] at h
  exact ⟨o, ho, fun s hs => by simpa using h s hs⟩

/-- The hypotheses of `C60_bodies_keep_braces_partial` hold. -/
example (checks : Bool) (cm : CMap) (hcm : commentMap exLonelyBlock = .ok cm) : ∃ i, ∀ (fuel : Nat) (n : Loc), n.id = i → ∀ p,
    Prog.new ⟨cm, checks⟩ fuel .block n = .ok p → ∀ k, p.build k cm = (Prog.concat [.pre n.id,
      .concat [.txt ['{'], .indent .nl, .indent (.dangling n.id), .nl, .txt ['}']]]).build k cm := by
  obtain ⟨o, ho, hs⟩ := exLonelyBlock_comment
  exact ⟨o.parent, fun fuel n hi p h k => C60_bodies_keep_braces_partial checks exLonelyBlock cm (closedB_iff _ (by decide)) rfl rfl hcm
    o ho hs fuel n hi .block (by simp) p h k⟩
example : Shows exLonelyBlock "class A { void m() { } }" ["/* c */"] "class A {\n  void m() {\n    /* c */\n  }\n}\n" :=
  ⟨⟨closedB_iff _ (by decide), by decide, by decide⟩, by decide, by decide +kernel, by decide +kernel, by decide +kernel⟩

end Afmt.Gram
