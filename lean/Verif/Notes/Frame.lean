import Verif.Notes.Owners

/-!
# Bodies of settled trees
-/

namespace Afmt.Notes
open Afmt.Gram
open Afmt.Lines (All Framed frame_none frame_alts atoms lang_atoms tokens_ok tokensOk sat_kind sat_named conf_kinds cls_kinds kind_root
  kind_classBody kind_block kind_interfaceBody kind_constructorBody noBody_all)

/-- The named nodes of bodies are members, the others own no comments. -/
def calmProd : Shape → Bool
  | .alts _ ps => (atoms (rxAlts ps)).all (fun a => a.kinds.all (fun k => if a.named then memberKinds.contains k else !isAssociableUnnamedKind k))
  | _ => true

theorem body_cls {n : Node} {nt : NT} (hk : ∀ ks, nt.kinds = some ks → ks.contains n.kind = true) {val : Bool}
    {ps : List (List Spec)} (hp : prod nt = .alts val ps) (hb : bodyKinds.contains n.kind = true) : calmProd (prod nt) = true := by
  simp only [bodyKinds, List.contains_eq_mem, List.mem_cons, List.not_mem_nil, or_false, decide_eq_true_eq] at hb
  cases nt with
  | cls c =>
    have hc := hk _ (cls_kinds hp)
    rcases hb with hb | hb | hb | hb | hb <;> rw [hb] at hc
    · obtain rfl := kind_root c hc; decide +kernel
    · obtain rfl := kind_classBody c hc; decide +kernel
    · obtain rfl := kind_block c hc; decide +kernel
    · obtain rfl := kind_interfaceBody c hc; decide +kernel
    · obtain rfl := kind_constructorBody c hc; decide +kernel
  | selectedFields => exact absurd (hk _ rfl) (by rcases hb with hb | hb | hb | hb | hb <;> rw [hb] <;> decide)
  | withUserId => exact absurd (hk _ rfl) (by rcases hb with hb | hb | hb | hb | hb <;> rw [hb] <;> decide)
  | withHighlight => exact absurd (hk _ rfl) (by rcases hb with hb | hb | hb | hb | hb <;> rw [hb] <;> decide)
  | securityWho => cases hp

theorem settled_eq (n : Node) : settled n =
    ((if bodyKinds.contains n.kind then settledBody n.children else n.children.all (fun c => !c.extra)) && settleds n.children) := by
  cases n; rw [settled]

theorem settleds_all : ∀ {ns : List Node}, settleds ns = true → ∀ c ∈ ns, settled c = true
  | [], _, c, hc => by cases hc
  | n :: ns, h, c, hc => by
    rw [settleds, Bool.and_eq_true] at h
    rcases List.mem_cons.1 hc with rfl | hc
    · exact h.1
    · exact settleds_all h.2 c hc

/-- The facts on a node. -/
def Both (n : Node) : Prop := Lines.Frame n ∧ Sett n

theorem sett_calm {n : Node} (hf : frameKinds.contains n.kind = false) (h : ∀ c ∈ n.children, c.extra = false) : Sett n := by
  refine ⟨fun _ => h, fun hb => ?_⟩
  rw [noFrame hf] at hb
  cases hb

theorem noBody_both {n : Node} (h : All Lines.Frame n) (hs : All (fun m => frameKinds.contains m.kind = false) n) : settled n = true → All Both n := by
  induction h with
  | mk h _ ih =>
    intro hst
    have hk := hs.here
    rw [settled_eq, noFrame hk, Bool.and_eq_true] at hst
    refine .mk ⟨h, sett_calm hk ?_⟩ (fun c hc => ih c hc (hs.kid hc) (settleds_all hst.2 c hc))
    intro c hc
    have := hst.1
    simp only [Bool.false_eq_true, if_false, List.all_eq_true, Bool.not_eq_true'] at this
    exact this c hc

mutual
theorem noBody_kinds : ∀ n : Node, noBody n = true → All (fun m => frameKinds.contains m.kind = false) n
  | .mk id kind named extra err field sr er sb eb text children, h => by
    simp only [noBody, Bool.and_eq_true, Bool.not_eq_true'] at h
    exact .mk h.1 (noBodies_kinds children h.2)
theorem noBodies_kinds : ∀ ns : List Node, noBodies ns = true → ∀ c ∈ ns, All (fun m => frameKinds.contains m.kind = false) c
  | [], _, c, hc => by cases hc
  | n :: ns, h, c, hc => by
    rw [noBodies, Bool.and_eq_true] at h
    rcases List.mem_cons.1 hc with e | hc
    · rw [e]; exact noBody_kinds n h.1
    · exact noBodies_kinds ns h.2 c hc
end

theorem leaf_both {n : Node} (hf : frameKinds.contains n.kind = false) (h : n.children = []) : All Both n := by
  refine .mk ⟨frame_none hf, sett_calm hf ?_⟩ ?_ <;> rw [h] <;> intro c hc <;> cases hc

theorem note_frame {n : Node} (h : Note n) : frameKinds.contains n.kind = false := by
  have := h.kind
  unfold Node.isCommentKind at this
  simp only [Bool.or_eq_true, beq_iff_eq] at this
  rcases this with h | h <;> rw [h] <;> decide

/-- The members of a body with comments. -/
theorem split_named (p : Node → Bool) (kids : List Node) (h : ((kids.dropWhile (fun c => !p c)).dropWhile p).all (fun c => !p c) = true) :
    ∃ xs ms ys, kids = xs ++ ms ++ ys ∧ (∀ c ∈ xs, p c = false) ∧ (∀ c ∈ ms, p c = true) ∧ (∀ c ∈ ys, p c = false) ∧ kids.filter p = ms := by
  have h1 : kids = kids.takeWhile (fun c => !p c) ++ (kids.dropWhile (fun c => !p c)).takeWhile p ++
      (kids.dropWhile (fun c => !p c)).dropWhile p := by
    rw [List.append_assoc, List.takeWhile_append_dropWhile, List.takeWhile_append_dropWhile]
  have hx : ∀ c ∈ kids.takeWhile (fun c => !p c), p c = false := fun c hc => by simpa using List.all_eq_true.1 List.all_takeWhile c hc
  have hm : ∀ c ∈ (kids.dropWhile (fun c => !p c)).takeWhile p, p c = true := fun c hc => by simpa using List.all_eq_true.1 List.all_takeWhile c hc
  have hy : ∀ c ∈ (kids.dropWhile (fun c => !p c)).dropWhile p, p c = false := by
    intro c hc
    have := List.all_eq_true.1 h c hc
    simpa using this
  refine ⟨_, _, _, h1, hx, hm, hy, ?_⟩
  conv => lhs; rw [h1]
  rw [List.filter_append, List.filter_append, List.filter_eq_nil_iff.2 (fun c hc => by rw [hx c hc]; exact Bool.false_ne_true),
    List.filter_eq_self.2 hm, List.filter_eq_nil_iff.2 (fun c hc => by rw [hy c hc]; exact Bool.false_ne_true)]
  simp

theorem apart_plain : ∀ (ms : List Node), (∀ c ∈ ms, c.extra = false) → apartRows ms = true
  | [], _ => rfl
  | [_], _ => rfl
  | c :: x :: r, h => by
    rw [apartRows, h c (by simp), h x (by simp), apart_plain (x :: r) (fun y hy => h y (List.mem_cons_of_mem _ hy))]
    rfl

/-- The shape of a body. -/
theorem body_sett {n : Node} (hb : bodyKinds.contains n.kind = true) (hs : settledBody n.children = true) (hf : (∀ c ∈ n.children, c.extra = false) → Framed n.children)
    (ha : ∀ c ∈ n.children, c.extra = false → if c.named then memberKinds.contains c.kind = true else isAssociableUnnamedKind c.kind = false) : Framed n.children ∧ Sett n := by
  have calm : bodyKinds.contains n.kind = false → ∀ c ∈ n.children, c.extra = false := fun h => by rw [hb] at h; cases h
  unfold settledBody at hs
  rw [Bool.or_eq_true] at hs
  rcases hs with hs | hs
  · have hx : ∀ c ∈ n.children, c.extra = false := fun c hc => by simpa using List.all_eq_true.1 hs c hc
    refine ⟨hf hx, calm, fun _ => ?_⟩
    obtain ⟨xs, ms, ys, e, h1, h2, h3⟩ := hf hx
    have hall : ∀ c ∈ xs ++ ms ++ ys, c ∈ n.children := fun c hc => e ▸ hc
    have hmem : ∀ c ∈ ms, Mem c := fun c hc =>
      have := hall c (List.mem_append_left _ (List.mem_append_right _ hc))
      ⟨h2 c hc, hx c this, by simpa [h2 c hc] using ha c this (hx c this)⟩
    have htx : ∀ c ∈ xs, Tok c := fun c hc =>
      have := hall c (List.mem_append_left _ (List.mem_append_left _ hc))
      ⟨h1 c hc, hx c this, by simpa [h1 c hc] using ha c this (hx c this)⟩
    have hty : ∀ c ∈ ys, Tok c := fun c hc =>
      have := hall c (List.mem_append_right _ hc)
      ⟨h3 c hc, hx c this, by simpa [h3 c hc] using ha c this (hx c this)⟩
    by_cases hms : ms = []
    · exact ⟨xs, [], ys, by rw [e, hms]; rfl, htx, hty, .nil, rfl⟩
    · obtain ⟨x, hxm⟩ := List.exists_mem_of_ne_nil _ hms
      obtain ⟨bs, -, b2, b3⟩ := blocks_of ms (fun c hc => .inl (hmem c hc)) ⟨x, hxm, hmem x hxm⟩
      exact ⟨xs, bs, ys, by rw [b2]; exact e, htx, hty, b3, by rw [b2]; exact apart_plain ms (fun c hc => (hmem c hc).2.1)⟩
  · simp only [Bool.and_eq_true] at hs
    obtain ⟨⟨⟨s1, s2⟩, s3⟩, s4⟩ := hs
    obtain ⟨xs, ms, ys, e, h1, h2, h3, h4⟩ := split_named (·.named) n.children s3
    refine ⟨⟨xs, ms, ys, e, h1, h2, h3⟩, calm, fun _ => ?_⟩
    have hall : ∀ c ∈ xs ++ ms ++ ys, c ∈ n.children := fun c hc => e ▸ hc
    have key : ∀ c ∈ n.children, (c.extra = true → Note c) := fun c hc hx => by
      have := List.all_eq_true.1 s2 c hc
      rw [hx] at this
      show isNote c = true
      simpa using this
    have tok : ∀ c ∈ n.children, c.named = false → Tok c := fun c hc hn => by
      have hx : c.extra = false := by
        cases hx : c.extra with
        | false => rfl
        | true => have := (key c hc hx).named; rw [hn] at this; cases this
      exact ⟨hn, hx, by simpa [hn] using ha c hc hx⟩
    have hmem : ∀ c ∈ ms, Mem c ∨ Note c := fun c hc => by
      have hc' := hall c (List.mem_append_left _ (List.mem_append_right _ hc))
      cases hx : c.extra with
      | true => exact .inr (key c hc' hx)
      | false => exact .inl ⟨h2 c hc, hx, by simpa [h2 c hc] using ha c hc' hx⟩
    obtain ⟨x, hx1, hx2⟩ := List.any_eq_true.1 s1
    simp only [Bool.and_eq_true, Bool.not_eq_true'] at hx2
    have hxm : x ∈ ms := by
      rw [← h4]
      exact List.mem_filter.2 ⟨hx1, hx2.1⟩
    obtain ⟨bs, -, b2, b3⟩ := blocks_of ms hmem ⟨x, hxm, hx2.1, hx2.2, by simpa [hx2.1] using ha x hx1 hx2.2⟩
    exact ⟨xs, bs, ys, by rw [b2]; exact e, fun c hc => tok c (hall c (List.mem_append_left _ (List.mem_append_left _ hc))) (h1 c hc),
      fun c hc => tok c (hall c (List.mem_append_right _ hc)) (h3 c hc), b3, by rw [b2, ← h4]; exact s4⟩

/-- The node with other children. -/
def withKids (n : Node) (cs : List Node) : Node := { n with children := cs }

/-- All nodes of a conforming tree with comments between members in which every node has children or a visible text. -/
theorem settled_all : ∀ (n : Node) (nt : NT), conf n nt = true → settled n = true → All (fun m => m.children ≠ [] ∨ ink m.text ≠ []) n →
    All Both n
  | .mk id kind named extra err field sr er sb eb text children, nt, h, hx, ht => by
    have sp : spelled (.mk id kind named extra err field sr er sb eb text children) = true →
        All Both (.mk id kind named extra err field sr er sb eb text children) :=
      fun hs => noBody_both (noBody_all _ (spelled_noBody hs)) (noBody_kinds _ (spelled_noBody hs)) hx
    cases hp : prod (nt.core kind) with
    | value => exact sp (conf_value h hp).1
    | words tbl => exact sp (conf_words h hp).1
    | alts val ps =>
      rcases conf_alts h hp with h1 | h1
      · exact sp h1.2.1
      · obtain ⟨_, _, h2, h3⟩ := h1
        have hne : children ≠ [] := ht.here.elim (fun h => h) (fun h => h2.resolve_right h)
        have hL := confs_sound _ _ h3
        have hkinds : ∀ ks, (nt.core kind).kinds = some ks → ks.contains kind = true := fun ks hk => conf_kinds h hk
        have hst := hx
        rw [settled_eq, Bool.and_eq_true] at hst
        obtain ⟨hst1, hst2⟩ := hst
        replace hst1 : (if bodyKinds.contains kind then settledBody children else children.all (fun c => !c.extra)) = true := hst1
        have hbones : children.filter (fun c => !c.extra) ≠ [] := by
          have plainly : (children.all (fun c => !c.extra)) = true → children.filter (fun c => !c.extra) ≠ [] := fun h => by
            rw [List.filter_eq_self.2 (List.all_eq_true.1 h)]; exact hne
          split at hst1
          · unfold settledBody at hst1
            rw [Bool.or_eq_true] at hst1
            rcases hst1 with h | h
            · exact plainly h
            · simp only [Bool.and_eq_true] at h
              obtain ⟨x, hx1, hx2⟩ := List.any_eq_true.1 h.1.1.1
              simp only [Bool.and_eq_true, Bool.not_eq_true'] at hx2
              exact List.ne_nil_of_mem (List.mem_filter.2 ⟨hx1, by rw [hx2.2]; rfl⟩)
          · exact plainly hst1
        have hfr : Lines.Frame (.mk id kind named extra err field sr er sb eb text (children.filter (fun c => !c.extra))) :=
          frame_alts (nt := nt.core kind) hkinds hp hL hbones
        refine .mk ?_ ?_
        · cases hb : bodyKinds.contains kind with
          | false =>
            rw [hb] at hst1
            have hpl : ∀ c ∈ children, c.extra = false := fun c hc => by simpa using List.all_eq_true.1 hst1 c hc
            rw [List.filter_eq_self.2 (fun c hc => by rw [hpl c hc]; rfl)] at hfr
            exact ⟨hfr, fun _ => hpl, fun hb' => by rw [show bodyKinds.contains kind = true from hb'] at hb; cases hb⟩
          | true =>
            rw [hb] at hst1
            have hcalm := body_cls (n := .mk id kind named extra err field sr er sb eb text children) hkinds hp hb
            rw [hp] at hcalm
            simp only [calmProd, List.all_eq_true] at hcalm
            obtain ⟨f1, f2⟩ := body_sett (n := .mk id kind named extra err field sr er sb eb text children) hb hst1
              (fun hpl => by
                have := hfr.body hb
                rw [show (Node.mk id kind named extra err field sr er sb eb text (children.filter (fun c => !c.extra))).children = children from
                  List.filter_eq_self.2 (fun c hc => by rw [hpl c hc]; rfl)] at this
                exact this)
              (fun c hc hxc => by
                obtain ⟨a, ha, hs⟩ := lang_atoms hL c (List.mem_filter.2 ⟨hc, by rw [hxc]; rfl⟩)
                have := hcalm a ha _ (sat_kind hs)
                rw [sat_named hs]
                cases hn : a.named <;> rw [hn] at this
                · simpa using this
                · exact this)
            refine ⟨⟨fun h => ?_, fun h => ?_, fun h => ?_, fun _ => f1⟩, f2⟩
            all_goals (
              simp only [bodyKinds, List.contains_eq_mem, List.mem_cons, List.not_mem_nil, or_false, decide_eq_true_eq] at hb
              first
              | (replace h : Lines.fullKinds.contains kind = true := h; rcases hb with hb | hb | hb | hb | hb <;> rw [hb] at h <;> exact absurd h (by decide))
              | (replace h : kind = _ := h; rcases hb with hb | hb | hb | hb | hb <;> rw [hb] at h <;> exact absurd h (by decide)))
        · intro c hc
          cases hxc : c.extra with
          | true =>
            have hnote : Note c := by
              split at hst1
              · unfold settledBody at hst1
                rw [Bool.or_eq_true] at hst1
                rcases hst1 with h | h
                · have := List.all_eq_true.1 h c hc; rw [hxc] at this; cases this
                · simp only [Bool.and_eq_true] at h
                  have := List.all_eq_true.1 h.1.1.2 c hc
                  rw [hxc] at this
                  show isNote c = true
                  simpa using this
              · have := List.all_eq_true.1 hst1 c hc; rw [hxc] at this; cases this
            exact leaf_both (note_frame hnote) hnote.leaf
          | false =>
            obtain ⟨a, ha, hs⟩ := lang_atoms hL c (List.mem_filter.2 ⟨hc, by rw [hxc]; rfl⟩)
            cases hnt : a.nt with
            | some nt' => exact settled_all c nt' (hs.2 nt' hnt) (settleds_all hst2 c hc) (ht.kid hc)
            | none =>
              have htok := tokens_ok (nt.core kind)
              rw [hp] at htok
              simp only [tokensOk, List.all_eq_true] at htok
              have h5 := htok a ha
              rw [hnt] at h5
              simp only [Option.isSome_none, Bool.false_or, List.all_eq_true] at h5
              have h6 := h5 c.kind (sat_kind hs)
              have h7 := hs.1
              simp only [Atom.fits, hnt, Option.isSome_none, Bool.false_or, Bool.and_eq_true, tokenText, List.isEmpty_iff] at h7
              exact leaf_both (by simpa using h6) h7.2.1

end Afmt.Notes
