import Verif.Gram.Final
import Verif.Lines.Calls

/-!
# Frames: what conformance says about bodies, constructors and lists of a tree without comments
-/

namespace Afmt.Lines
open Gram

/-- Something holds for all nodes of a tree. -/
inductive All (Q : Node → Prop) : Node → Prop
  | mk {n : Node} : Q n → (∀ c ∈ n.children, All Q c) → All Q n

theorem All.here {Q : Node → Prop} {n : Node} (h : All Q n) : Q n := by cases h; assumption
theorem All.kid {Q : Node → Prop} {n c : Node} (h : All Q n) (hc : c ∈ n.children) : All Q c := by
  cases h with | mk _ h => exact h c hc

theorem All.imp {Q R : Node → Prop} (hqr : ∀ n, Q n → R n) {n : Node} (h : All Q n) : All R n := by
  induction h with
  | mk h _ ih => exact .mk (hqr _ h) ih

/-- Nodes of the tree at locations. -/
theorem All.at {Q : Node → Prop} {root : Node} (h : All Q root) {l : Loc} (hl : In root l) : All Q l.node := by
  induction hl with
  | root => exact h
  | child _ hc ih => exact ih.kid (mem_children_node hc)
where
  mem_children_node {l c : Loc} (h : c ∈ l.children) : c.node ∈ l.node.children := by
    have go : ∀ (p : Loc) (lefts rest : List Node) (c : Loc), c ∈ Loc.childrenGo p lefts rest → c.node ∈ rest := by
      intro p lefts rest
      induction rest generalizing lefts with
      | nil => intro c h; rw [Loc.childrenGo] at h; cases h
      | cons x rest ih =>
        intro c h
        rw [Loc.childrenGo, List.mem_cons] at h
        rcases h with rfl | h
        · exact List.mem_cons_self
        · exact List.mem_cons_of_mem _ (ih _ c h)
    exact go _ _ _ _ h

/-! ### Atoms of productions -/

/-- The atoms of an expression. -/
def atoms : Rx → List Atom
  | .none => []
  | .eps => []
  | .atom a => [a]
  | .seq r s => atoms r ++ atoms s
  | .alt r s => atoms r ++ atoms s
  | .star r => atoms r

theorem lang_atoms {α : Type} {sat : Atom → α → Prop} {r : Rx} : ∀ {w : List α}, Lang sat r w →
    ∀ x ∈ w, ∃ a ∈ atoms r, sat a x := by
  induction r with
  | none => intro w h; cases h
  | eps => intro w h x hx; simp only [Lang] at h; subst h; cases hx
  | atom a =>
    rintro w ⟨y, rfl, hy⟩ x hx
    rw [List.mem_singleton] at hx; subst hx
    exact ⟨a, by simp [atoms], hy⟩
  | seq r s ih1 ih2 =>
    rintro w ⟨u, v, rfl, hu, hv⟩ x hx
    simp only [atoms, List.mem_append] at hx ⊢
    rcases hx with hx | hx
    · obtain ⟨a, ha, h⟩ := ih1 hu x hx; exact ⟨a, .inl ha, h⟩
    · obtain ⟨a, ha, h⟩ := ih2 hv x hx; exact ⟨a, .inr ha, h⟩
  | alt r s ih1 ih2 =>
    intro w h x hx
    simp only [atoms, List.mem_append]
    rcases h with h | h
    · obtain ⟨a, ha, h⟩ := ih1 h x hx; exact ⟨a, .inl ha, h⟩
    · obtain ⟨a, ha, h⟩ := ih2 h x hx; exact ⟨a, .inr ha, h⟩
  | star r ih =>
    rintro w ⟨ws, rfl, hws⟩ x hx
    obtain ⟨u, hu, hx⟩ := List.mem_flatten.1 hx
    exact ih (hws u hu) x hx

/-- Tokens of the productions are no frames. -/
def tokensOk : Shape → Bool
  | .alts _ ps => (atoms (rxAlts ps)).all (fun a => a.nt.isSome || a.kinds.all (fun k => !frameKinds.contains k))
  | _ => true

theorem tokens_ok (nt : NT) : tokensOk (prod nt) = true := by
  cases nt with
  | cls c => cases c <;> decide +kernel
  | selectedFields => decide +kernel
  | withUserId => decide +kernel
  | withHighlight => decide +kernel
  | securityWho => decide +kernel

/-! ### Frames -/

/-- The children are members, possibly between tokens. -/
def Framed (cs : List Node) : Prop :=
  ∃ xs ms ys, cs = xs ++ ms ++ ys ∧ (∀ c ∈ xs, c.named = false) ∧ (∀ c ∈ ms, c.named = true) ∧ ∀ c ∈ ys, c.named = false

/-- Facts on bodies, constructors and lists. -/
structure Frame (n : Node) : Prop where
  full : fullKinds.contains n.kind = true → ∃ c ∈ n.children, c.named = true
  mods : n.kind = "modifiers" → ∃ c ∈ n.children, c.named = true ∧ (c.kind = "annotation" ∨ c.kind = "modifier")
  ctor : n.kind = "constructor_declaration" → ∀ c ∈ n.children, c.field = some "body" → c.kind = "constructor_body"
  body : bodyKinds.contains n.kind = true → Framed n.children

theorem frame_none {n : Node} (h : frameKinds.contains n.kind = false) : Frame n := by
  have h1 : n.kind ∉ frameKinds := by simpa using h
  refine ⟨fun h => ?_, fun h => ?_, fun h => ?_, fun h => ?_⟩
  · refine absurd ?_ h1
    simp only [fullKinds, List.contains_eq_mem, decide_eq_true_eq] at h
    simp only [frameKinds, List.mem_append]
    exact .inr (by simp only [List.mem_cons, List.not_mem_nil, or_false] at h ⊢; rcases h with h | h | h | h | h <;> simp [h])
  · exact absurd (by rw [h]; decide) h1
  · exact absurd (by rw [h]; decide) h1
  · rw [noFrame (by simpa using h1)] at h; cases h

mutual
theorem noBody_all : ∀ n : Node, noBody n = true → All Frame n
  | .mk id kind named extra err field sr er sb eb text children, h => by
    simp only [noBody, Bool.and_eq_true, Bool.not_eq_true'] at h
    exact .mk (frame_none h.1) (noBodies_all children h.2)
theorem noBodies_all : ∀ ns : List Node, noBodies ns = true → ∀ c ∈ ns, All Frame c
  | [], _, c, hc => by cases hc
  | n :: ns, h, c, hc => by
    rw [noBodies, Bool.and_eq_true] at h
    rcases List.mem_cons.1 hc with e | hc
    · rw [e]; exact noBody_all n h.1
    · exact noBodies_all ns h.2 c hc
end

theorem kind_classBody (c : Cls) : (kindOf c).contains "class_body" = true → c = .classBody := by cases c <;> decide +kernel
theorem kind_block (c : Cls) : (kindOf c).contains "block" = true → c = .block := by cases c <;> decide +kernel
theorem kind_interfaceBody (c : Cls) : (kindOf c).contains "interface_body" = true → c = .interfaceBody := by
  cases c <;> decide +kernel
theorem kind_constructorBody (c : Cls) : (kindOf c).contains "constructor_body" = true → c = .constructorBody := by
  cases c <;> decide +kernel
theorem kind_root (c : Cls) : (kindOf c).contains "parser_output" = true → c = .root := by cases c <;> decide +kernel
theorem kind_constructor (c : Cls) : (kindOf c).contains "constructor_declaration" = true → c = .constructorDeclaration := by
  cases c <;> decide +kernel
theorem kind_modifiers (c : Cls) : (kindOf c).contains "modifiers" = true → c = .modifiers := by cases c <;> decide +kernel
theorem kind_typeList (c : Cls) : (kindOf c).contains "type_list" = true → c = .typeList := by cases c <;> decide +kernel
theorem kind_and (c : Cls) : (kindOf c).contains "and_expression" = true → c = .andExpression := by cases c <;> decide +kernel
theorem kind_or (c : Cls) : (kindOf c).contains "or_expression" = true → c = .orExpression := by cases c <;> decide +kernel
theorem kind_select (c : Cls) : (kindOf c).contains "select_clause" = true → c = .selectClause ∨ c = .selectClauseVariant := by
  cases c <;> decide +kernel
theorem kind_fields (c : Cls) : (kindOf c).contains "selected_fields" = false := by cases c <;> decide +kernel

theorem sat_named {a : Atom} {n : Node} (h : Sat a n) : n.named = a.named := by
  have := h.1
  simp only [Atom.fits, Bool.and_eq_true, beq_iff_eq] at this
  exact this.1.1.1
theorem sat_kind {a : Atom} {n : Node} (h : Sat a n) : n.kind ∈ a.kinds := by
  have := h.1
  simp only [Atom.fits, Bool.and_eq_true, List.contains_eq_mem, decide_eq_true_eq] at this
  exact this.1.2
theorem sat_field {a : Atom} {n : Node} (h : Sat a n) : n.field ∈ a.fields := by
  have := h.1
  simp only [Atom.fits, Bool.and_eq_true, List.contains_eq_mem, decide_eq_true_eq] at this
  exact this.1.1.2

theorem framed_braces {a b c : Atom} {w : List Node} (h : Lang Sat (rxSeq [.one a, .many b, .one c]) w)
    (ha : a.named = false) (hb : b.named = true) (hc : c.named = false) : Framed w := by
  obtain ⟨u, v, rfl, ⟨x, rfl, hx⟩, u', v', rfl, hu, u2, v2, rfl, ⟨y, rfl, hy⟩, hv⟩ := h
  simp only [rxSeq, Lang] at hv
  subst hv
  refine ⟨[x], u', [y], by simp, ?_, ?_, ?_⟩
  · intro z hz; rw [List.mem_singleton] at hz; subst hz; rw [sat_named hx, ha]
  · intro z hz; rw [sat_named (lang_atom_star (sat := Sat) hu z hz), hb]
  · intro z hz; rw [List.mem_singleton] at hz; subst hz; rw [sat_named hy, hc]

theorem framed_ctor {a b c d : Atom} {w : List Node} (h : Lang Sat (rxSeq [.one a, .one d, .many b, .one c]) w)
    (ha : a.named = false) (hd : d.named = true) (hb : b.named = true) (hc : c.named = false) : Framed w := by
  obtain ⟨u, v, rfl, ⟨x, rfl, hx⟩, u', v', rfl, ⟨z, rfl, hz⟩, h⟩ := h
  obtain ⟨u1, v1, rfl, hu, u2, v2, rfl, ⟨y, rfl, hy⟩, hv⟩ := h
  simp only [rxSeq, Lang] at hv
  subst hv
  refine ⟨[x], z :: u1, [y], by simp, ?_, ?_, ?_⟩
  · intro t ht; rw [List.mem_singleton] at ht; subst ht; rw [sat_named hx, ha]
  · intro t ht
    rcases List.mem_cons.1 ht with rfl | ht
    · rw [sat_named hz, hd]
    · rw [sat_named (lang_atom_star (sat := Sat) hu t ht), hb]
  · intro t ht; rw [List.mem_singleton] at ht; subst ht; rw [sat_named hy, hc]

theorem framed_all {w : List Node} (h : ∀ c ∈ w, c.named = true) : Framed w :=
  ⟨[], w, [], by simp, by simp, h, by simp⟩

theorem cls_kinds {c : Cls} {val : Bool} {ps : List (List Spec)} (h : prod (.cls c) = .alts val ps) :
    NT.kinds (.cls c) = some (kindOf c) := by
  cases c <;> first | rfl | cases h

theorem conf_kinds {n : Node} {nt : NT} (h : conf n nt = true) {ks : List String} (hk : (nt.core n.kind).kinds = some ks) :
    ks.contains n.kind = true := by
  cases n with
  | mk id kind named extra err field sr er sb eb text children =>
    rw [conf] at h
    simp only [Bool.and_eq_true] at h
    have := h.1.2
    simp only at hk
    rw [hk] at this
    exact this

/-- Frames of nodes with productions. -/
theorem frame_alts {n : Node} {nt : NT} (hk : ∀ ks, nt.kinds = some ks → ks.contains n.kind = true) {val : Bool}
    {ps : List (List Spec)} (hp : prod nt = .alts val ps) (hl : Lang Sat (rxAlts ps) n.children) (hne : n.children ≠ []) :
    Frame n := by
  cases hf : frameKinds.contains n.kind with
  | false => exact frame_none hf
  | true =>
    have one_alt : ∀ {p : List Spec}, Lang Sat (rxAlts [p]) n.children → Lang Sat (rxSeq p) n.children := by
      intro p h
      simp only [rxAlts, Lang, or_false] at h
      exact h
    have hn : nt = .selectedFields ∨ ∃ c, nt = .cls c ∧ (kindOf c).contains n.kind = true := by
      cases nt with
      | cls c => exact .inr ⟨c, rfl, hk _ (cls_kinds hp)⟩
      | selectedFields => exact .inl rfl
      | withUserId => exact absurd hf (by have := hk _ rfl; simp at this; rw [this]; decide)
      | withHighlight => exact absurd hf (by have := hk _ rfl; simp at this; rw [this]; decide)
      | securityWho => cases hp
    have body : ∀ {n : Node}, bodyKinds.contains n.kind = true → Framed n.children → Frame n := by
      intro n hb hfr
      simp only [bodyKinds, List.contains_eq_mem, List.mem_cons, List.not_mem_nil, or_false, decide_eq_true_eq] at hb
      refine ⟨fun h => ?_, fun h => ?_, fun h => ?_, fun _ => hfr⟩
      all_goals rcases hb with hb | hb | hb | hb | hb <;> rw [hb] at h <;> exact absurd h (by decide)
    have full : (∃ c ∈ n.children, c.named = true) → fullKinds.contains n.kind = true → Frame n := by
      intro hc hb
      refine ⟨fun _ => hc, fun h => ?_, fun h => ?_, fun h => ?_⟩
      · rw [h] at hb; exact absurd hb (by decide)
      · rw [h] at hb; exact absurd hb (by decide)
      · simp only [fullKinds, List.contains_eq_mem, List.mem_cons, List.not_mem_nil, or_false, decide_eq_true_eq] at hb
        rcases hb with hb | hb | hb | hb | hb <;> rw [hb] at h <;> exact absurd h (by decide)
    rcases hn with rfl | ⟨c, rfl, hc⟩
    · have hs := hk _ rfl
      simp only [List.contains_eq_mem, List.mem_singleton, decide_eq_true_eq] at hs
      cases hp
      obtain ⟨u, v, e, ⟨u1, v1, rfl, ⟨x, rfl, hx⟩, _⟩, _⟩ := one_alt hl
      exact full ⟨x, by rw [e]; simp, sat_named hx⟩ (by rw [hs]; decide)
    · simp only [frameKinds, bodyKinds, List.contains_eq_mem, List.mem_append, List.mem_cons, List.not_mem_nil, or_false,
        decide_eq_true_eq] at hf
      rcases hf with (hf | hf | hf | hf | hf) | hf | hf | hf | hf | hf | hf | hf | hf | hf | hf | hf | hf | hf | hf | hf | hf | hf <;>
        rw [hf] at hc
      · obtain rfl := kind_root c hc
        cases hp
        refine body (by rw [hf]; decide) (framed_all ?_)
        obtain ⟨u, v, e, hu, hv⟩ := one_alt hl
        simp only [rxSeq, Lang] at hv
        subst hv
        rw [e, List.append_nil]
        intro z hz
        exact sat_named (lang_atom_star (sat := Sat) hu z hz)
      · obtain rfl := kind_classBody c hc
        cases hp
        exact body (by rw [hf]; decide) (framed_braces (one_alt hl) rfl rfl rfl)
      · obtain rfl := kind_block c hc
        cases hp
        exact body (by rw [hf]; decide) (framed_braces (one_alt hl) rfl rfl rfl)
      · obtain rfl := kind_interfaceBody c hc
        cases hp
        exact body (by rw [hf]; decide) (framed_braces (one_alt hl) rfl rfl rfl)
      · obtain rfl := kind_constructorBody c hc
        cases hp
        refine body (by rw [hf]; decide) ?_
        rcases hl with hl | hl
        · exact framed_braces hl rfl rfl rfl
        · exact framed_ctor (one_alt hl) rfl rfl rfl rfl
      · obtain rfl := kind_constructor c hc
        cases hp
        refine ⟨fun h => ?_, fun h => ?_, fun _ => ?_, fun h => ?_⟩
        · rw [hf] at h; exact absurd h (by decide)
        · rw [hf] at h; exact absurd h (by decide)
        · intro x hx hxf
          obtain ⟨a, ha, hs⟩ := lang_atoms (one_alt hl) x hx
          have h1 := sat_field hs
          have h2 := sat_kind hs
          rw [hxf] at h1
          have key : ∀ a ∈ atoms (rxSeq [.opt (k0 .modifiers), .opt (kx "type_parameters" .typeParameters),
              .one (vf "name" ["identifier"]), .one (kf "parameters" .formalParameters),
              .one (kf "body" .constructorBody)]), some "body" ∈ a.fields → a.kinds = ["constructor_body"] := by
            decide +kernel
          rw [key a ha h1] at h2
          simpa using h2
        · rw [hf] at h; exact absurd h (by decide)
      · obtain rfl := kind_modifiers c hc
        cases hp
        refine ⟨fun h => ?_, fun _ => ?_, fun h => ?_, fun h => ?_⟩
        · rw [hf] at h; exact absurd h (by decide)
        · obtain ⟨x, hx⟩ := List.exists_mem_of_ne_nil _ hne
          obtain ⟨a, ha, hs⟩ := lang_atoms (one_alt hl) x hx
          have h2 := sat_kind hs
          have key : ∀ a ∈ atoms (rxSeq [.many (k0 .annotation), .many (k0 .modifier)]),
              a.named = true ∧ (a.kinds = ["annotation"] ∨ a.kinds = ["modifier"]) := by decide +kernel
          obtain ⟨h3, h4⟩ := key a ha
          refine ⟨x, hx, by rw [sat_named hs, h3], ?_⟩
          rcases h4 with h4 | h4 <;> rw [h4] at h2 <;> simp at h2 <;> simp [h2]
        · rw [hf] at h; exact absurd h (by decide)
        · rw [hf] at h; exact absurd h (by decide)
      · obtain rfl := kind_typeList c hc
        cases hp
        obtain ⟨u, v, e, ⟨u1, v1, rfl, ⟨x, rfl, hx⟩, _⟩, _⟩ := one_alt hl
        exact full ⟨x, by rw [e]; simp, sat_named hx⟩ (by rw [hf]; decide)
      · obtain rfl := kind_and c hc
        cases hp
        obtain ⟨u, v, e, ⟨u1, v1, rfl, h, _⟩, _⟩ := one_alt hl
        rcases h with ⟨x, rfl, hx⟩ | ⟨u2, v2, rfl, _, u3, v3, rfl, ⟨x, rfl, hx⟩, _⟩
        · exact full ⟨x, by rw [e]; simp, sat_named hx⟩ (by rw [hf]; decide)
        · exact full ⟨x, by rw [e]; simp, sat_named hx⟩ (by rw [hf]; decide)
      · obtain rfl := kind_or c hc
        cases hp
        obtain ⟨u, v, e, ⟨u1, v1, rfl, h, _⟩, _⟩ := one_alt hl
        rcases h with ⟨x, rfl, hx⟩ | ⟨u2, v2, rfl, _, u3, v3, rfl, ⟨x, rfl, hx⟩, _⟩
        · exact full ⟨x, by rw [e]; simp, sat_named hx⟩ (by rw [hf]; decide)
        · exact full ⟨x, by rw [e]; simp, sat_named hx⟩ (by rw [hf]; decide)
      · have hps : ps = [[.one (tok "SELECT"), .one (k0 .countExpression)],
            [.one (tok "SELECT"), .sep1 (k0 .selectableExpression) ","]] := by
          rcases kind_select c hc with rfl | rfl <;> cases hp <;> rfl
        subst hps
        refine full ?_ (by rw [hf]; decide)
        rcases hl with ⟨u, v, e, _, u1, v1, rfl, ⟨x, rfl, hx⟩, _⟩ | hl
        · exact ⟨x, by rw [e]; simp, sat_named hx⟩
        · obtain ⟨u, v, e, _, u1, v1, rfl, ⟨u2, v2, rfl, ⟨x, rfl, hx⟩, _⟩, _⟩ := one_alt hl
          exact ⟨x, by rw [e]; simp, sat_named hx⟩
      · rw [kind_fields c] at hc; cases hc
      all_goals
        refine ⟨fun h => ?_, fun h => ?_, fun h => ?_, fun h => ?_⟩ <;> rw [hf] at h <;> exact absurd h (by decide)

/-- All nodes of a conforming tree without comments in which every node has children or a visible text. -/
theorem conf_all : ∀ (n : Node) (nt : NT), conf n nt = true → plain n = true → All (fun m => m.children ≠ [] ∨ ink m.text ≠ []) n →
    All Frame n
  | .mk id kind named extra err field sr er sb eb text children, nt, h, hx, ht => by
    have sp : spelled (.mk id kind named extra err field sr er sb eb text children) = true →
        All Frame (.mk id kind named extra err field sr er sb eb text children) :=
      fun hs => noBody_all _ (spelled_noBody hs)
    cases hp : prod (nt.core kind) with
    | value => exact sp (conf_value h hp).1
    | words tbl => exact sp (conf_words h hp).1
    | alts val ps =>
      rcases conf_alts h hp with h1 | h1
      · exact sp h1.2.1
      · obtain ⟨_, _, h2, h3⟩ := h1
        have hne : children ≠ [] := ht.here.elim (fun h => h) (fun h => h2.resolve_right h)
        rw [plain, Bool.and_eq_true] at hx
        have hpl := plains_all hx.2
        have hfl : children.filter (fun c => !c.extra) = children := by
          rw [List.filter_eq_self]
          intro c hc
          have := hpl c hc
          cases c with
          | mk _ _ _ e _ _ _ _ _ _ _ _ => rw [plain, Bool.and_eq_true] at this; exact this.1
        have hL := confs_sound _ _ h3
        simp only [hfl] at hL
        refine .mk (frame_alts (nt := nt.core kind) (fun ks hk => conf_kinds h hk) hp hL hne) ?_
        intro c hc
        obtain ⟨a, ha, hs⟩ := lang_atoms hL c hc
        cases hnt : a.nt with
        | some nt' => exact conf_all c nt' (hs.2 nt' hnt) (hpl c hc) (ht.kid hc)
        | none =>
          have htok := tokens_ok (nt.core kind)
          rw [hp] at htok
          simp only [tokensOk, List.all_eq_true] at htok
          have h5 := htok a ha
          rw [hnt] at h5
          simp only [Option.isSome_none, Bool.false_or, List.all_eq_true] at h5
          have h6 := h5 c.kind (sat_kind hs)
          have h7 := hs.1
          simp only [Atom.fits, hnt, Option.isSome_none, Bool.false_or, Bool.and_eq_true, tokenText, List.isEmpty_iff] at h7
          refine .mk (frame_none (by simpa using h6)) ?_
          rw [h7.2.1]
          intro x hx
          cases hx
where
  plains_all : ∀ {ns : List Node}, plains ns = true → ∀ c ∈ ns, plain c = true
    | [], _, c, hc => by cases hc
    | n :: ns, h, c, hc => by
      rw [plains, Bool.and_eq_true] at h
      rcases List.mem_cons.1 hc with rfl | hc
      · exact h.1
      · exact plains_all h.2 c hc

end Afmt.Lines
