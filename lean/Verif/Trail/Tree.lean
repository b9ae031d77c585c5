import Verif.Lines.Idem
import Verif.Trail.Calls

/-!
# What conformance says about grouping, declarators and lookups
-/

namespace Afmt.Trail
open Gram
open Afmt.Lines (All Frame atoms lang_atoms sat_named sat_kind sat_field conf_kinds cls_kinds tokens_ok tokensOk child_of fullKinds)

/-- Facts on `GROUP BY`, declarators and `USING LOOKUP`. -/
structure Tr (n : Node) : Prop where
  grp : n.kind = "group_by_clause" → ∃ c ∈ n.children, c.named = true ∧ c.kind ≠ "having_clause"
  asg : n.kind = "variable_declarator" → (∃ c ∈ n.children, c.field = some "value") →
    ∃ c ∈ n.children, c.named = true ∧ c.kind = "assignment_operator"
  look : n.kind ≠ "using_lookup_clause" ∧ n.kind ≠ "using_lookup_bind_clause"

theorem tr_none {n : Node} (h : frameKinds.contains n.kind = false) : Tr n := by
  refine ⟨fun hk => ?_, fun hk => ?_, fun hk => ?_, fun hk => ?_⟩ <;> rw [hk] at h <;> exact absurd h (by decide)

mutual
theorem noBody_tr : ∀ n : Node, noBody n = true → All Tr n
  | .mk id kind named extra err field sr er sb eb text children, h => by
    simp only [noBody, Bool.and_eq_true, Bool.not_eq_true'] at h
    exact .mk (tr_none h.1) (noBodies_tr children h.2)
theorem noBodies_tr : ∀ ns : List Node, noBodies ns = true → ∀ c ∈ ns, All Tr c
  | [], _, c, hc => by cases hc
  | n :: ns, h, c, hc => by
    rw [noBodies, Bool.and_eq_true] at h
    rcases List.mem_cons.1 hc with e | hc
    · rw [e]; exact noBody_tr n h.1
    · exact noBodies_tr ns h.2 c hc
end

theorem kind_group (c : Cls) : (kindOf c).contains "group_by_clause" = true → c = .groupByClause := by cases c <;> decide +kernel
theorem kind_declarator (c : Cls) : (kindOf c).contains "variable_declarator" = true → c = .variableDeclarator := by
  cases c <;> decide +kernel
theorem kind_lookup (c : Cls) : (kindOf c).contains "using_lookup_clause" = true → c = .usingLookupClause := by
  cases c <;> decide +kernel
theorem kind_bind (c : Cls) : (kindOf c).contains "using_lookup_bind_clause" = true → c = .usingLookupBindClause := by
  cases c <;> decide +kernel

/-- Nodes with productions. -/
theorem tr_alts {n : Node} {nt : NT} (hk : ∀ ks, nt.kinds = some ks → ks.contains n.kind = true) {val : Bool}
    {ps : List (List Spec)} (hp : prod nt = .alts val ps) (hs : sane n.kind n.children = true)
    (hl : Lang Sat (rxAlts ps) (n.children.filter (fun c => !c.extra))) : Tr n := by
  have other : n.kind ≠ "group_by_clause" → n.kind ≠ "variable_declarator" → n.kind ≠ "using_lookup_clause" →
      n.kind ≠ "using_lookup_bind_clause" → Tr n := fun h1 h2 h3 h4 => ⟨fun h => absurd h h1, fun h => absurd h h2, h3, h4⟩
  cases nt with
  | cls c =>
    have hc := hk _ (cls_kinds hp)
    by_cases h1 : n.kind = "group_by_clause"
    · rw [h1] at hc
      obtain rfl := kind_group c hc
      cases hp
      refine ⟨fun _ => ?_, fun h => absurd (h1.symm.trans h) (by decide), by rw [h1]; decide, by rw [h1]; decide⟩
      simp only [rxAlts, Lang, or_false] at hl
      obtain ⟨u, v, e, _, u1, v1, rfl, _, u2, v2, rfl, ⟨u3, v3, rfl, ⟨x, rfl, hx⟩, _⟩, _⟩ := hl
      have hm : x ∈ n.children.filter (fun c => !c.extra) := by rw [e]; simp
      refine ⟨x, (List.mem_filter.1 hm).1, sat_named hx, ?_⟩
      have h2 := sat_kind hx
      intro h3
      rw [h3] at h2
      exact absurd h2 (by decide +kernel)
    by_cases h2 : n.kind = "variable_declarator"
    · rw [h2] at hc
      obtain rfl := kind_declarator c hc
      cases hp
      refine ⟨fun h => absurd (h2.symm.trans h) (by decide), fun _ => ?_, by rw [h2]; decide, by rw [h2]; decide⟩
      rintro ⟨c, hc, hf⟩
      have hce : c ∈ n.children.filter (fun c => !c.extra) := by
        refine List.mem_filter.2 ⟨hc, ?_⟩
        cases he : c.extra with
        | false => rfl
        | true => rw [(sane_extras hs c hc he).1] at hf; cases hf
      rcases hl with hl | hl
      · obtain ⟨a, h1, h2⟩ := lang_atoms hl c hce
        have h3 := sat_field h2
        rw [hf] at h3
        exfalso
        clear h2
        revert a
        decide +kernel
      · simp only [rxAlts, Lang, or_false] at hl
        obtain ⟨u, v, e, _, u1, v1, rfl, ⟨x, rfl, hx⟩, _⟩ := hl
        have hm : x ∈ n.children.filter (fun c => !c.extra) := by rw [e]; simp
        refine ⟨x, (List.mem_filter.1 hm).1, sat_named hx, ?_⟩
        have h2 := sat_kind hx
        exact List.mem_singleton.1 h2
    by_cases h3 : n.kind = "using_lookup_clause"
    · rw [h3] at hc
      obtain rfl := kind_lookup c hc
      cases hp
      cases hl
    by_cases h4 : n.kind = "using_lookup_bind_clause"
    · rw [h4] at hc
      obtain rfl := kind_bind c hc
      cases hp
      cases hl
    exact other h1 h2 h3 h4
  | selectedFields =>
    have := hk _ rfl; simp at this
    exact other (by rw [this]; decide) (by rw [this]; decide) (by rw [this]; decide) (by rw [this]; decide)
  | withUserId =>
    have := hk _ rfl; simp at this
    exact other (by rw [this]; decide) (by rw [this]; decide) (by rw [this]; decide) (by rw [this]; decide)
  | withHighlight =>
    have := hk _ rfl; simp at this
    exact other (by rw [this]; decide) (by rw [this]; decide) (by rw [this]; decide) (by rw [this]; decide)
  | securityWho => cases hp

/-- All nodes of a conforming tree. -/
theorem conf_tr : ∀ (n : Node) (nt : NT), conf n nt = true → All Tr n
  | .mk id kind named extra err field sr er sb eb text children, nt, h => by
    have sp : spelled (.mk id kind named extra err field sr er sb eb text children) = true →
        All Tr (.mk id kind named extra err field sr er sb eb text children) :=
      fun hs => noBody_tr _ (spelled_noBody hs)
    cases hp : prod (nt.core kind) with
    | value => exact sp (conf_value h hp).1
    | words tbl => exact sp (conf_words h hp).1
    | alts val ps =>
      rcases conf_alts h hp with h1 | h1
      · exact sp h1.2.1
      · obtain ⟨hs, _, h2, h3⟩ := h1
        have hL := confs_sound _ _ h3
        refine .mk (tr_alts (nt := nt.core kind) (fun ks hk => conf_kinds h hk) hp hs hL) ?_
        intro c hc
        cases he : c.extra with
        | true =>
          refine .mk (tr_none ?_) ?_
          · rcases (sane_extras hs c hc he).2 with hk | hk <;> rw [hk] <;> decide
          · rw [sane_leaf hs c hc he]
            intro x hx
            cases hx
        | false =>
          obtain ⟨a, ha, hsat⟩ := lang_atoms hL c (List.mem_filter.2 ⟨hc, by simp [he]⟩)
          cases hnt : a.nt with
          | some nt' => exact conf_tr c nt' (hsat.2 nt' hnt)
          | none =>
            have htok := tokens_ok (nt.core kind)
            rw [hp] at htok
            simp only [tokensOk, List.all_eq_true] at htok
            have h5 := htok a ha
            rw [hnt] at h5
            simp only [Option.isSome_none, Bool.false_or, List.all_eq_true] at h5
            have h6 := h5 c.kind (sat_kind hsat)
            have h7 := hsat.1
            simp only [Atom.fits, hnt, Option.isSome_none, Bool.false_or, Bool.and_eq_true, tokenText, List.isEmpty_iff] at h7
            refine .mk (tr_none (by simpa using h6)) ?_
            rw [h7.2.1]
            intro x hx
            cases hx

end Afmt.Trail
