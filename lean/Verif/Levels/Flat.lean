import Verif.Levels.Sim
import Verif.Trail.Tree

/-!
# Classes of nodes in which no line has to begin
-/

namespace Afmt.Levels
open Gram
open Afmt.Lines (All)
open Afmt.Notes (KidsB Inky)

/-- Kinds of nodes in which lines have to begin. -/
def layKinds : List String := "parser_output" :: "accessor_list" :: "if_statement" :: bracedKinds

theorem lay_flow {kind : String} (h : layKinds.contains kind = false) (cs : List Node) : lay kind cs = .flow := by
  simp only [layKinds, List.contains_cons, Bool.or_eq_false_iff] at h
  unfold lay
  rw [h.1, h.2.1, h.2.2.1, h.2.2.2]
  rfl

/-- Classes of nodes that contain bodies, statements with bodies, or accessors. -/
def tall : Cls → Bool
  | .root | .rootMember | .classMember | .interfaceMember | .statement | .classDeclaration | .methodDeclaration
  | .classBody | .fieldDeclaration | .block | .ifStatement | .forStatement | .enhancedForStatement
  | .constructorDeclaration | .constructorBody | .runAsStatement | .doStatement | .whileStatement | .tryStatement
  | .catchClause | .finallyClause | .staticInitializer | .interfaceDeclaration | .interfaceBody | .accessorList
  | .accessorDeclaration | .switchExpression | .switchBlock | .switchRule | .triggerDeclaration | .triggerBody => true
  | _ => false

/-- Other nonterminals. -/
def flatNT : NT → Bool
  | .cls c => !tall c
  | _ => true

/-- The atom is not matched by nodes that contain bodies. -/
def flatAtom (a : Atom) : Bool :=
  match a.nt with
  | some nt => flatNT nt
  | none => a.kinds.all (fun k => !layKinds.contains k)

/-- The atoms of a production are flat, except for the body of an anonymous class. -/
def flatShape : Shape → Bool
  | .alts _ ps => (Lines.atoms (rxAlts ps)).all (fun a => flatAtom a || a == k0 .classBody)
  | _ => true

theorem flat_prod (nt : NT) (h : flatNT nt = true) : flatShape (prod nt) = true := by
  cases nt with
  | cls c => revert h; cases c <;> decide +kernel
  | selectedFields => decide +kernel
  | withUserId => decide +kernel
  | withHighlight => decide +kernel
  | securityWho => decide +kernel

/-- Only the creation of objects has the body of a class among its atoms. -/
def anonShape : Shape → Bool
  | .alts _ ps => (Lines.atoms (rxAlts ps)).contains (k0 .classBody)
  | _ => false

theorem anon_prod (nt : NT) (h : flatNT nt = true) (ha : anonShape (prod nt) = true) : nt = .cls .objectCreationExpression := by
  cases nt with
  | cls c => revert h ha; cases c <;> decide +kernel
  | selectedFields => exact absurd ha (by decide +kernel)
  | withUserId => exact absurd ha (by decide +kernel)
  | withHighlight => exact absurd ha (by decide +kernel)
  | securityWho => exact absurd ha (by decide +kernel)

theorem anon_atom : (k0 .classBody).kinds = ["class_body"] := by decide

theorem anon_of {nt : NT} {val : Bool} {ps : List (List Spec)} (hp : prod nt = .alts val ps)
    (h : k0 .classBody ∈ Lines.atoms (rxAlts ps)) : anonShape (prod nt) = true := by
  rw [hp, anonShape]
  exact List.contains_iff_mem.2 h

theorem flat_of {nt : NT} {val : Bool} {ps : List (List Spec)} (hp : prod nt = .alts val ps) (hf : flatNT nt = true)
    {a : Atom} (h : a ∈ Lines.atoms (rxAlts ps)) : flatAtom a = true ∨ a = k0 .classBody := by
  have h4 := flat_prod _ hf
  rw [hp, flatShape] at h4
  have h5 := List.all_eq_true.1 h4 a h
  rw [Bool.or_eq_true, beq_iff_eq] at h5
  exact h5

theorem flat_kinds (nt : NT) (h : flatNT nt = true) : ∀ ks, nt.kinds = some ks → ks.all (fun k => !layKinds.contains k) = true := by
  cases nt with
  | cls c =>
    intro ks e
    revert h
    cases c <;> cases e <;> decide +kernel
  | selectedFields => intro ks e; cases e; decide
  | withUserId => intro ks e; cases e; decide
  | withHighlight => intro ks e; cases e; decide
  | securityWho => intro ks e; cases e

theorem flat_sub (c : Cls) (h : tall c = false) : (sub c).all (fun e => !tall e.2) = true := by
  revert h; cases c <;> decide +kernel

theorem flat_resolve (k : String) : ∀ (fuel : Nat) (c : Cls), tall c = false → tall (resolve fuel c k) = false
  | 0, _, h => h
  | fuel + 1, c, h => by
    rw [resolve]
    split
    · rename_i e he
      have := List.all_eq_true.1 (flat_sub c h) e (List.mem_of_find?_eq_some he)
      exact flat_resolve k fuel e.2 (by simpa using this)
    · exact h

theorem flat_core {nt : NT} (h : flatNT nt = true) (k : String) : flatNT (nt.core k) = true := by
  cases nt with
  | cls c =>
    simp only [flatNT, Bool.not_eq_true'] at h
    simp only [NT.core, flatNT, Bool.not_eq_true']
    exact flat_resolve k 5 c h
  | _ => rfl

theorem flow_of {n : Node} (h : layKinds.contains n.kind = false) (hc : ∀ c ∈ n.children, flowing c = true) : flowing n = true := by
  have key : ∀ ns : List Node, (∀ c ∈ ns, flowing c = true) → flowings ns = true := by
    intro ns
    induction ns with
    | nil => intro _; rfl
    | cons c cs ih =>
      intro h
      rw [flowings, Bool.and_eq_true]
      exact ⟨h c (List.mem_cons_self ..), ih (fun d hd => h d (List.mem_cons_of_mem _ hd))⟩
  cases n with
  | mk id kind named extra err field sr er sb eb text children =>
    rw [flowing, Bool.and_eq_true, beq_iff_eq]
    exact ⟨lay_flow h _, key _ hc⟩

theorem frame_lay {k : String} (h : frameKinds.contains k = false) : layKinds.contains k = false := by
  have key : ∀ x ∈ layKinds, x ∈ frameKinds := by decide
  cases hc : layKinds.contains k with
  | false => rfl
  | true =>
    rw [List.contains_iff_mem.2 (key k (List.contains_iff_mem.1 hc))] at h
    exact absurd h (by decide)

mutual
theorem noBody_flowing : ∀ n : Node, noBody n = true → flowing n = true
  | .mk id kind named extra err field sr er sb eb text children, h => by
    rw [noBody, Bool.and_eq_true, Bool.not_eq_true'] at h
    exact flow_of (frame_lay h.1) (noBodies_flowing children h.2)
theorem noBodies_flowing : ∀ ns : List Node, noBodies ns = true → ∀ c ∈ ns, flowing c = true
  | [], _, c, hc => by cases hc
  | n :: ns, h, c, hc => by
    rw [noBodies, Bool.and_eq_true] at h
    rcases List.mem_cons.1 hc with e | hc
    · rw [e]; exact noBody_flowing n h.1
    · exact noBodies_flowing ns h.2 c hc
end

/-- What is required of the nodes. -/
def Fit (cm : CMap) (n : Node) : Prop := KidsB cm n ∧ regular n.kind n.children = true ∧ Inky n ∧
  (n.kind = "else" → ∃ c r, n.text = c :: r ∧ isBlank c = false)

theorem Fit.anon {cm : CMap} {n : Node} (h : Fit cm n) (hk : n.kind = "object_creation_expression") : ∀ c ∈ n.children, c.kind ≠ "class_body" := by
  have := h.2.1
  simp only [regular, Bool.and_eq_true, hk] at this
  simpa using this.1.1

/-- Nodes of other classes contain no places where lines have to begin. -/
theorem flat_flowing {cm : CMap} : ∀ (n : Node) (nt : NT), conf n nt = true → flatNT nt = true → All (Fit cm) n → flowing n = true
  | .mk id kind named extra err field sr er sb eb text children, nt, h, hf, ha => by
    have sp : spelled (.mk id kind named extra err field sr er sb eb text children) = true →
        flowing (.mk id kind named extra err field sr er sb eb text children) = true :=
      fun hs => noBody_flowing _ (spelled_noBody hs)
    have hcf := flat_core hf kind
    cases hp : prod (nt.core kind) with
    | value => exact sp (conf_value h hp).1
    | words tbl => exact sp (conf_words h hp).1
    | alts val ps =>
      rcases conf_alts h hp with h1 | h1
      · exact sp h1.2.1
      · obtain ⟨hs, _, h2, h3⟩ := h1
        have hL := confs_sound _ _ h3
        have hkind : layKinds.contains kind = false := by
          have hks : ∃ ks, (nt.core kind).kinds = some ks := by
            revert hp
            cases nt.core kind with
            | cls c => exact fun hp => ⟨_, Lines.cls_kinds hp⟩
            | selectedFields => exact fun _ => ⟨_, rfl⟩
            | withUserId => exact fun _ => ⟨_, rfl⟩
            | withHighlight => exact fun _ => ⟨_, rfl⟩
            | securityWho => exact fun hp => by cases hp
          obtain ⟨ks, hks⟩ := hks
          have h4 := Lines.conf_kinds h hks
          have h5 := List.all_eq_true.1 (flat_kinds _ hcf ks hks) kind (List.contains_iff_mem.1 h4)
          simpa using h5
        refine flow_of hkind ?_
        intro c hc
        have he : c.extra = false := (ha.here.1.calm (flow_body (lay_flow hkind children)) c hc).1
        obtain ⟨a, ham, hsat⟩ := Lines.lang_atoms hL c (List.mem_filter.2 ⟨hc, by simp [he]⟩)
        have hfl : flatAtom a = true := by
          refine (flat_of hp hcf ham).resolve_right (fun h6 => ?_)
          have h7 : nt.core kind = .cls .objectCreationExpression := by
            rw [h6] at ham
            exact anon_prod _ hcf (anon_of hp ham)
          have hk : kind = "object_creation_expression" := by
            have e : (nt.core kind).kinds = some ["object_creation_expression"] := by rw [h7]; decide
            have := Lines.conf_kinds h e
            simpa using this
          have h8 := ha.here.anon hk c hc
          have h9 := Lines.sat_kind hsat
          rw [h6, anon_atom] at h9
          exact h8 (List.mem_singleton.1 h9)
        cases hnt : a.nt with
        | some nt' =>
          refine flat_flowing c nt' (hsat.2 nt' hnt) ?_ (ha.kid hc)
          simpa [flatAtom, hnt] using hfl
        | none =>
          rw [flatAtom, hnt] at hfl
          have h6 := List.all_eq_true.1 hfl c.kind (Lines.sat_kind hsat)
          have h7 := hsat.1
          simp only [Atom.fits, hnt, Option.isSome_none, Bool.false_or, Bool.and_eq_true, tokenText, List.isEmpty_iff] at h7
          refine flow_of (by simpa using h6) ?_
          rw [h7.2.1]
          intro x hx
          cases hx

end Afmt.Levels
