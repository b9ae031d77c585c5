import Verif.Lines.Frame
import Verif.Words.Calls

/-!
# What conformance says about operators and constructor calls
-/

namespace Afmt.Words
open Gram Afmt.Lines

/-- Facts on operators and constructor calls. -/
structure Wd (n : Node) : Prop where
  opers : ["unary_expression", "update_expression"].contains n.kind = true → ∀ c ∈ n.children, c.field = some "operator" →
    Solid c.text
  object : n.kind = "explicit_constructor_invocation" → ∀ c ∈ n.children, c.field ≠ some "object"

theorem wd_none {n : Node} (h : frameKinds.contains n.kind = false) : Wd n := by
  refine ⟨fun hk => ?_, fun hk => ?_⟩
  · simp only [List.contains_eq_mem, List.mem_cons, List.not_mem_nil, or_false, decide_eq_true_eq] at hk
    rcases hk with hk | hk <;> rw [hk] at h <;> exact absurd h (by decide)
  · rw [hk] at h; exact absurd h (by decide)

mutual
theorem noBody_wd : ∀ n : Node, noBody n = true → All Wd n
  | .mk id kind named extra err field sr er sb eb text children, h => by
    simp only [noBody, Bool.and_eq_true, Bool.not_eq_true'] at h
    exact .mk (wd_none h.1) (noBodies_wd children h.2)
theorem noBodies_wd : ∀ ns : List Node, noBodies ns = true → ∀ c ∈ ns, All Wd c
  | [], _, c, hc => by cases hc
  | n :: ns, h, c, hc => by
    rw [noBodies, Bool.and_eq_true] at h
    rcases List.mem_cons.1 hc with e | hc
    · rw [e]; exact noBody_wd n h.1
    · exact noBodies_wd ns h.2 c hc
end

/-- A text without characters of words. -/
theorem solid_of {s : Str} (h : ∀ x ∈ letters false s, wordChar x.1 = false) (hne : s ≠ []) : Solid s := by
  have key : ∀ (s : Str) (w w' : Bool), (∀ x ∈ letters w s, wordChar x.1 = false) → s ≠ [] → endsWord w' s = false := by
    intro s
    induction s with
    | nil => intro _ _ _ h; exact absurd rfl h
    | cons c s ih =>
      intro w w' h _
      rw [endsWord]
      have hc : (!isBlank c && wordChar c) = false := by
        cases hb : isBlank c with
        | true => rfl
        | false =>
          rw [letters, hb] at h
          exact h _ List.mem_cons_self
      rw [hc]
      cases s with
      | nil => rfl
      | cons d s =>
        rw [letters] at h
        split at h
        · exact ih _ _ h (by simp)
        · exact ih _ _ (fun x hx => h x (List.mem_cons_of_mem _ hx)) (by simp)
  unfold Solid
  refine ⟨?_, key s false true h hne⟩
  cases s with
  | nil => rfl
  | cons c s =>
    rw [headWord]
    cases hb : isBlank c with
    | true => rfl
    | false =>
      rw [letters, hb] at h
      exact h _ List.mem_cons_self

/-- A token of an operator. -/
theorem solid_token {n : Node} {k : String} (h : tokenText n = true) (hk : n.kind = k)
    (hw : ∀ x ∈ foldL (letters false k.toList), wordChar x.1 = false) (hne : foldL (letters false k.toList) ≠ []) : Solid n.text := by
  simp only [tokenText, Bool.and_eq_true, beq_iff_eq, hk] at h
  refine solid_of ?_ ?_
  · intro x hx
    rw [← word_lower]
    exact hw (x.1.toLower, x.2) (by rw [← h.2]; exact List.mem_map_of_mem (f := fun x : Letter => (x.1.toLower, x.2)) hx)
  · intro e
    rw [e] at h
    exact hne h.2.symm

theorem kind_unary (c : Cls) : (kindOf c).contains "unary_expression" = true → c = .unaryExpression := by cases c <;> decide +kernel
theorem kind_update (c : Cls) : (kindOf c).contains "update_expression" = true →
    c = .updateExpression ∨ c = .updateExpressionVariant := by cases c <;> decide +kernel
theorem kind_invocation (c : Cls) : (kindOf c).contains "explicit_constructor_invocation" = true → c = .constructInvocation := by
  cases c <;> decide +kernel

/-- Nodes with productions. -/
theorem wd_alts {n : Node} {nt : NT} (hk : ∀ ks, nt.kinds = some ks → ks.contains n.kind = true) {val : Bool}
    {ps : List (List Spec)} (hp : prod nt = .alts val ps) (hs : sane n.kind n.children = true)
    (hl : Lang Sat (rxAlts ps) (n.children.filter (fun c => !c.extra))) : Wd n := by
  have other : n.kind ≠ "unary_expression" → n.kind ≠ "update_expression" → n.kind ≠ "explicit_constructor_invocation" → Wd n := by
    intro h1 h2 h3
    refine ⟨fun h => ?_, fun h => absurd h h3⟩
    simp only [List.contains_eq_mem, List.mem_cons, List.not_mem_nil, or_false, decide_eq_true_eq] at h
    rcases h with h | h
    · exact absurd h h1
    · exact absurd h h2
  have kid : ∀ c ∈ n.children, c.field ≠ none → ∃ a ∈ atoms (rxAlts ps), Sat a c := by
    intro c hc hf
    refine lang_atoms hl c (List.mem_filter.2 ⟨hc, ?_⟩)
    cases he : c.extra with
    | false => rfl
    | true => exact absurd (sane_extras hs c hc he).1 hf
  have tokens : ∀ a ∈ atoms (rxAlts ps), a.nt = none → ∀ c, Sat a c → tokenText c = true := by
    intro a _ hn c h
    have := h.1
    simp only [Atom.fits, hn, Option.isSome_none, Bool.false_or, Bool.and_eq_true] at this
    exact this.2
  have oper : ∀ ks : List String, (∀ a ∈ atoms (rxAlts ps), some "operator" ∈ a.fields → a.nt = none ∧ a.kinds = ks) →
      (∀ k ∈ ks, (∀ x ∈ foldL (letters false k.toList), wordChar x.1 = false) ∧ foldL (letters false k.toList) ≠ []) →
      ∀ c ∈ n.children, c.field = some "operator" → Solid c.text := by
    intro ks ha hks c hc hf
    obtain ⟨a, h1, h2⟩ := kid c hc (by rw [hf]; simp)
    have h3 := sat_field h2
    rw [hf] at h3
    obtain ⟨h4, h5⟩ := ha a h1 h3
    have h6 := sat_kind h2
    rw [h5] at h6
    exact solid_token (tokens a h1 h4 c h2) rfl (hks _ h6).1 (hks _ h6).2
  cases nt with
  | cls c =>
    have hc := hk _ (cls_kinds hp)
    by_cases h1 : n.kind = "unary_expression"
    · rw [h1] at hc
      obtain rfl := kind_unary c hc
      cases hp
      refine ⟨fun _ => oper ["+", "-", "!", "~"] (by decide +kernel) (by decide +kernel), fun h => ?_⟩
      rw [h1] at h; exact absurd h (by decide)
    by_cases h2 : n.kind = "update_expression"
    · rw [h2] at hc
      have hps : ps = [[.one (tokF "operator" ["++", "--"]), .one (kf "operand" .expression)],
          [.one (kf "operand" .expression), .one (tokF "operator" ["++", "--"])]] := by
        rcases kind_update c hc with rfl | rfl <;> cases hp <;> rfl
      subst hps
      refine ⟨fun _ => oper ["++", "--"] (by decide +kernel) (by decide +kernel), fun h => ?_⟩
      rw [h2] at h; exact absurd h (by decide)
    by_cases h3 : n.kind = "explicit_constructor_invocation"
    · rw [h3] at hc
      obtain rfl := kind_invocation c hc
      cases hp
      refine ⟨fun h => ?_, fun _ => ?_⟩
      · rw [h3] at h; exact absurd h (by decide)
      · intro c hc hf
        obtain ⟨a, h1, h2⟩ := kid c hc (by rw [hf]; simp)
        have h3 := sat_field h2
        rw [hf] at h3
        clear h2
        revert a
        decide +kernel
    exact other h1 h2 h3
  | selectedFields => have := hk _ rfl; simp at this; exact other (by rw [this]; decide) (by rw [this]; decide) (by rw [this]; decide)
  | withUserId => have := hk _ rfl; simp at this; exact other (by rw [this]; decide) (by rw [this]; decide) (by rw [this]; decide)
  | withHighlight => have := hk _ rfl; simp at this; exact other (by rw [this]; decide) (by rw [this]; decide) (by rw [this]; decide)
  | securityWho => cases hp

/-- All nodes of a conforming tree. -/
theorem conf_wd : ∀ (n : Node) (nt : NT), conf n nt = true → All Wd n
  | .mk id kind named extra err field sr er sb eb text children, nt, h => by
    have sp : spelled (.mk id kind named extra err field sr er sb eb text children) = true →
        All Wd (.mk id kind named extra err field sr er sb eb text children) :=
      fun hs => noBody_wd _ (spelled_noBody hs)
    cases hp : prod (nt.core kind) with
    | value => exact sp (conf_value h hp).1
    | words tbl => exact sp (conf_words h hp).1
    | alts val ps =>
      rcases conf_alts h hp with h1 | h1
      · exact sp h1.2.1
      · obtain ⟨hs, _, h2, h3⟩ := h1
        have hL := confs_sound _ _ h3
        refine .mk (wd_alts (nt := nt.core kind) (fun ks hk => conf_kinds h hk) hp hs hL) ?_
        intro c hc
        cases he : c.extra with
        | true =>
          refine .mk (wd_none ?_) ?_
          · rcases (sane_extras hs c hc he).2 with hk | hk <;> rw [hk] <;> decide
          · rw [sane_leaf hs c hc he]
            intro x hx
            cases hx
        | false =>
          obtain ⟨a, ha, hsat⟩ := lang_atoms hL c (List.mem_filter.2 ⟨hc, by simp [he]⟩)
          cases hnt : a.nt with
          | some nt' => exact conf_wd c nt' (hsat.2 nt' hnt)
          | none =>
            have htok := tokens_ok (nt.core kind)
            rw [hp] at htok
            simp only [tokensOk, List.all_eq_true] at htok
            have h5 := htok a ha
            rw [hnt] at h5
            simp only [Option.isSome_none, Bool.false_or, List.all_eq_true] at h5
            have h6 := h5 c.kind (sat_kind hsat)
            have h7 := hsat.1
            simp only [Atom.fits, hnt, Option.isSome_none, Bool.false_or, Bool.and_eq_true, tokenText, List.isEmpty_iff] at h7
            refine .mk (wd_none (by simpa using h6)) ?_
            rw [h7.2.1]
            intro x hx
            cases hx

/-- Conforming trees. -/
theorem wordTree {root : Node} (h : conforms root = true) : WordTree root := by
  simp only [conforms, Bool.and_eq_true] at h
  have hw := conf_wd root _ h.2
  refine ⟨fun l o hl hk ho => ?_, fun l hl hk => ?_⟩
  · have hmem := List.mem_of_find?_eq_some ho
    exact (hw.at hl).here.opers hk o.node (All.at.mem_children_node hmem) (by simpa using List.find?_some ho)
  · cases ho : l.tryCByN "object" with
    | none => rfl
    | some o =>
      have hmem := List.mem_of_find?_eq_some ho
      exact absurd (by simpa using List.find?_some ho) ((hw.at hl).here.object hk o.node (All.at.mem_children_node hmem))

end Afmt.Words
