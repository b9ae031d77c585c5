import Verif.Gram.Main
import Verif.PropsFormat

/-!
# From programs to runs: what formatting a conforming tree does
-/

namespace Afmt.Gram
open Prog

/-! ### Comments in the content of a tree -/

/-- Comments of the bucket of an id. -/
def atId (cm : CMap) (i : Nat) : List Comment := ((cm.get? i).map Bucket.all).getD []

theorem coms_bucket (cm : CMap) (k : String) (i : Nat) : (coms (bcom cm k i) ++ coms (acom cm k i)).Perm (atId cm i) := by
  unfold bcom acom atId
  cases cm.get? i with
  | none => simp
  | some b =>
    simp only [coms_append, coms_com, Bucket.all, Option.map_some, Option.getD_some, List.append_assoc]
    exact List.Perm.append_left _ List.perm_append_comm

mutual
theorem coms_cont (cm : CMap) : ∀ n : Node, n.Closed → (n.associable = false → n.children = []) →
    (coms (cont cm n)).Perm ((if n.associable then ids n else []).flatMap (atId cm))
  | .mk id kind named extra err field sr er sb eb text children, hc, hl => by
    have hi := ids_eq (.mk id kind named extra err field sr er sb eb text children)
    have ih := coms_conts cm (bodyKinds.contains kind) children (by simpa [Node.Closed] using hc)
    rw [hi]
    simp only [Node.associable, Bool.and_eq_false_imp] at hl ⊢
    cases extra with
    | true => cases children <;> simp [cont]
    | false =>
      by_cases hv : (named || isAssociableUnnamedKind kind) = true
      case neg =>
        have := hl (fun _ => by simpa using hv)
        subst this
        simp only [cont, hv, Bool.false_eq_true, if_false, List.nil_append, List.append_nil, coms_inl, Bool.not_false, Bool.true_and, List.flatMap_nil]
        exact List.Perm.refl _
      case pos =>
        cases children with
        | nil =>
          simp only [cont, hv, Bool.not_false, Bool.true_and, if_true, Bool.false_eq_true, if_false, coms_append,
            List.flatMap_cons, coms_inl, idss, kidsCode, List.map_nil, List.flatMap_nil, List.append_nil]
          exact coms_bucket cm kind id
        | cons c cs =>
          rw [conts, coms_append, coms_append, coms_brk, List.nil_append] at ih
          simp only [coms_brk, List.nil_append, cont, hv, Bool.not_false, Bool.true_and, if_true, Bool.false_eq_true, if_false, coms_append,
            List.flatMap_cons]
          refine (List.Perm.append_right _ (List.Perm.append_left _ ih)).trans ?_
          rw [List.append_assoc]
          refine (List.Perm.append_left _ List.perm_append_comm).trans ?_
          rw [← List.append_assoc]
          exact List.Perm.append_right _ (coms_bucket cm kind id)
theorem coms_conts (cm : CMap) (b : Bool) : ∀ ns : List Node, kidsClosed ns → (coms (conts cm b ns)).Perm ((idss ns).flatMap (atId cm))
  | [], _ => by simp [conts, idss, kidsCode]
  | c :: cs, hc => by
    rw [kidsClosed] at hc
    rw [conts, coms_append, coms_append, coms_brk, List.nil_append, idss_cons, List.flatMap_append]
    exact (coms_cont cm c hc.2.1 hc.1).append (coms_conts cm b cs hc.2.2)
end

theorem atId_cons (k : Nat) (b : Bucket) (cm : CMap) (i : Nat) :
    atId ((k, b) :: cm) i = if k = i then b.all else atId cm i := by
  unfold atId CMap.get?
  by_cases h : k = i <;> simp [h]

/-- Buckets of different ids are different parts of the map. -/
theorem within_all : ∀ (cm : CMap) (L : List Nat), L.Nodup → Within (L.flatMap (atId cm)) cm.all
  | [], L, _ => by
    have : L.flatMap (atId []) = [] := by simp [atId, CMap.get?]
    rw [this]; exact .nil _
  | (k, b) :: cm, L, hn => by
    have hall : CMap.all ((k, b) :: cm) = b.all ++ CMap.all cm := by simp [CMap.all]
    rw [hall]
    by_cases hk : k ∈ L
    · have hp := List.perm_cons_erase hk
      have hn' : (k :: L.erase k).Nodup := hp.nodup_iff.1 hn
      obtain ⟨ex, hx⟩ := within_all cm (L.erase k) (List.nodup_cons.1 hn').2
      have e : (L.erase k).flatMap (atId ((k, b) :: cm)) = (L.erase k).flatMap (atId cm) := by
        have hne : ∀ i ∈ L.erase k, atId ((k, b) :: cm) i = atId cm i := by
          intro i hi
          rw [atId_cons, if_neg]
          rintro rfl
          exact (List.nodup_cons.1 hn').1 hi
        rw [List.flatMap_def, List.flatMap_def, List.map_congr_left hne]
      have hp2 : (L.flatMap (atId ((k, b) :: cm))).Perm (b.all ++ (L.erase k).flatMap (atId cm)) := by
        refine (hp.flatMap_right _).trans ?_
        rw [List.flatMap_cons, e, atId_cons, if_pos rfl]
      refine ⟨ex, ?_⟩
      refine (List.Perm.append_left _ hx).trans ?_
      rw [← List.append_assoc]
      exact List.Perm.append_right _ hp2.symm
    · have e : L.flatMap (atId ((k, b) :: cm)) = L.flatMap (atId cm) := by
        have hne : ∀ i ∈ L, atId ((k, b) :: cm) i = atId cm i := by
          intro i hi
          rw [atId_cons, if_neg]
          rintro rfl
          exact hk hi
        rw [List.flatMap_def, List.flatMap_def, List.map_congr_left hne]
      rw [e]
      obtain ⟨ex, hx⟩ := within_all cm L hn
      refine ⟨b.all ++ ex, ?_⟩
      refine (List.Perm.append_left _ hx).trans ?_
      rw [← List.append_assoc, ← List.append_assoc]
      exact List.Perm.append_right _ List.perm_append_comm

theorem coms_root {root : Node} {cm : CMap} (g : Good root cm) : Within (coms (cont cm root)) cm.all := by
  have ha : root.associable = true := by simp [Node.associable, g.named, g.noExtra]
  have h := coms_cont cm root g.closed (by simp [ha])
  rw [ha, if_pos rfl] at h
  exact within_trans (within_perm h) (within_all cm _ g.nodup)

/-! ### The extras of a conforming tree are comments -/

mutual
theorem plain_extras : ∀ n : Node, plain n = true → n.extras = []
  | .mk id kind named extra err field sr er sb eb text children, h => by
    rw [plain, Bool.and_eq_true] at h
    rw [Node.extras]
    exact plains_extras children h.2 id []
theorem plains_extras : ∀ ns : List Node, plains ns = true → ∀ pid lefts, kidsExtras pid lefts ns = []
  | [], _, _, _ => by rw [kidsExtras]
  | c :: cs, h, pid, lefts => by
    rw [plains, Bool.and_eq_true] at h
    have hc : c.extra = false := by
      have := h.1
      cases c
      simp only [plain, Bool.and_eq_true, Bool.not_eq_true'] at this
      exact this.1
    rw [kidsExtras, plain_extras c h.1, plains_extras cs h.2, hc]
    rfl
end

theorem sane_comments {kind : String} {ns : List Node} (h : sane kind ns = true) :
    ∀ c ∈ ns, c.extra = true → c.isCommentKind = true := by
  intro c hc he
  simp only [sane, Bool.and_eq_true, List.all_eq_true] at h
  have := h.1.1.1.1.1 c hc
  simp only [he, Bool.not_true, Bool.false_or, Bool.and_eq_true] at this
  exact this.2

mutual
theorem conf_extras : ∀ (n : Node) (nt : NT), conf n nt = true → n.Closed → ∀ o ∈ n.extras, o.node.isCommentKind = true
  | .mk id kind named extra err field sr er sb eb text children, nt, h, hc => by
    have sp : spelled (.mk id kind named extra err field sr er sb eb text children) = true →
        ∀ o ∈ (Node.mk id kind named extra err field sr er sb eb text children).extras, o.node.isCommentKind = true := by
      intro hs o ho
      rw [spelled, Bool.and_eq_true] at hs
      rw [plain_extras _ (Bool.and_eq_true _ _ ▸ hs.1).1] at ho
      cases ho
    cases hp : prod (nt.core kind) with
    | value => exact sp (conf_value h hp).1
    | words tbl => exact sp (conf_words h hp).1
    | alts val ps =>
      rcases conf_alts h hp with h | h
      · exact sp h.2.1
      · intro o ho
        rw [Node.extras] at ho
        rw [Node.Closed] at hc
        exact confs_extras children _ h.2.2.2 hc (sane_comments h.1) id [] o ho
theorem confs_extras : ∀ (ns : List Node) (r : Rx), confs ns r = true → kidsClosed ns →
    (∀ c ∈ ns, c.extra = true → c.isCommentKind = true) → ∀ pid lefts, ∀ o ∈ kidsExtras pid lefts ns, o.node.isCommentKind = true
  | [], _, _, _, _, pid, lefts, o, ho => by rw [kidsExtras] at ho; cases ho
  | c :: cs, r, h, hc, hk, pid, lefts, o, ho => by
    rw [kidsClosed] at hc
    rw [kidsExtras, List.mem_append, List.mem_append] at ho
    rw [confs] at h
    cases he : c.extra with
    | true =>
      simp only [he, if_true] at h
      rcases ho with (ho | ho) | ho
      · simp only [he, if_true, List.mem_singleton] at ho
        subst ho
        exact hk c (by simp) he
      · rw [extras_of_leaf (hc.1 (by simp [Node.associable, he]))] at ho
        cases ho
      · exact confs_extras cs r h hc.2.2 (fun c h => hk c (by simp [h])) pid _ o ho
    | false =>
      simp only [he, Bool.false_eq_true, if_false, List.any_eq_true, Bool.and_eq_true] at h
      obtain ⟨a, _, ⟨hf, hn⟩, hr⟩ := h
      rcases ho with (ho | ho) | ho
      · simp [he] at ho
      · cases ha : a.nt with
        | some nt =>
          rw [ha] at hn
          exact conf_extras c nt hn hc.2.1 o ho
        | none =>
          simp only [Atom.fits, ha, Option.isSome_none, Bool.false_or, Bool.and_eq_true, tokenText, List.isEmpty_iff] at hf
          rw [extras_of_leaf hf.2.1] at ho
          cases ho
      · exact confs_extras cs _ hr hc.2.2 (fun c h => hk c (by simp [h])) pid _ o ho
end

/-! ### Runs -/

/-- What is known of every tree the parser returns: tokens and comments are leaves, and different nodes have different
ids. -/
structure Parsed (root : Node) : Prop where
  closed : root.Closed
  codeIds : (root.codeNodes.map (·.id)).Nodup
  commentIds : (root.extras.map (fun o => o.node.id)).Nodup

theorem conforms_root {root : Node} (h : conforms root = true) :
    root.kind = "parser_output" ∧ root.named = true ∧ root.extra = false ∧ conf root (.cls .root) = true := by
  simp only [conforms, Bool.and_eq_true] at h
  refine ⟨?_, h.1, ?_, h.2⟩
  · cases root with
    | mk id kind named extra err field sr er sb eb text children =>
      have h2 := h.2
      simp only [conf, Bool.and_eq_true] at h2
      have h3 := h2.1.2
      have e : NT.kinds (NT.core (.cls .root) kind) = some ["parser_output"] := rfl
      rw [e] at h3
      simpa using h3
  · cases root with
    | mk id kind named extra err field sr er sb eb text children =>
      have h2 := h.2
      simp only [conf, Bool.and_eq_true] at h2
      simpa using h2.1.1

theorem good_of {root : Node} {cm : CMap} (hp : Parsed root) (hc : conforms root = true) (h : commentMap root = .ok cm) :
    Good root cm :=
  let ⟨h1, h2, h3, _⟩ := conforms_root hc
  ⟨h1, h2, h3, hp.closed, hp.codeIds, h⟩

/-- What a successful run on a conforming tree prints, with the comments at their places. -/
theorem run_conts {checks : Bool} {depth : Nat} {cfg : Config} {root : Node} {out : Str} (hp : Parsed root)
    (hc : conforms root = true) (h : formatTree checks depth cfg root = .ok out) :
    ∃ cm p is log d, commentMap root = .ok cm ∧ Prog.new { cm, checks } depth .root (Loc.ofRoot root) = .ok p ∧
      items cm p = .ok (is, log) ∧ p.build cfg.indentSize cm = .ok (d, log) ∧ d.Items (plainItems is) ∧
      out = layout cfg.maxWidth d ∧ (commentsOf (plainItems is)).Perm (root.extras.map Occ.comment) ∧
      ∃ k, SameX (flatI is) k ∧ codeC k = codeC (cont cm root) ∧ (spots 0 k).Perm (spots 0 (cont cm root)) ∧
        firmly k = firmly (cont cm root) := by
  obtain ⟨cm, p, is, log, d, hcm, hn, hi, hm, hb, hd, _, ho⟩ := formatTree_content h
  have g := good_of hp hc hcm
  have hW := root_content (cfg := { cm, checks }) g rfl (conforms_root hc).2.2.2 depth
  rw [hn] at hW
  obtain ⟨is', log', k, hi', h1, h5, h6, h7⟩ := (show Sx (items cm p) (cont cm root) from hW)
  have h2 : Within (commentsOf (plainItems is')) (coms (cont cm root)) := by
    rw [h1.parts.2, ← coms_spots k 0, ← coms_spots (cont cm root) 0]
    exact h6.map _
  have hpl := items_plain cm p
  rw [hi, hi'] at hpl
  have his : is = plainItems is' ∧ log = log' := by injection hpl with h; injection h with h h'; exact ⟨h, h'⟩
  obtain ⟨rfl, rfl⟩ := his
  have hall := (C14_every_comment_attached_once root hp.closed g.named g.noExtra).2 cm hcm
  obtain ⟨ex, hx⟩ := within_trans h2 (coms_root g)
  have hnd : cm.all.Nodup := by
    rw [hall.nodup_iff]
    have : (root.extras.map (fun o => o.node.id)) = (root.extras.map Occ.comment).map (·.id) := by
      simp [Occ.comment]
    have h := hp.commentIds
    rw [this] at h
    exact nodup_of_map _ h
  have hex : ex = [] := by
    rw [hx.nodup_iff, List.nodup_append] at hnd
    cases ex with
    | nil => rfl
    | cons c ex =>
      have h3 : c ∈ cm.all := hx.mem_iff.2 (by simp)
      have h4 : c ∈ commentsOf (plainItems is') := (items_log cm p _ log hi).mem (hm c h3)
      exact absurd rfl (hnd.2.2 c h4 c (by simp))
  subst hex
  rw [List.append_nil] at hx
  obtain ⟨e, he⟩ := h6
  have hl : e = [] := by
    have l1 := he.length_eq
    obtain ⟨e', he'⟩ := coms_root g
    have l2 := he'.length_eq
    have l3 := hx.length_eq
    rw [h1.parts.2, ← coms_spots k 0, List.length_map] at l3
    rw [List.length_append, ← coms_spots (cont cm root) 0, List.length_map] at l2
    rw [List.length_append] at l1
    exact List.eq_nil_of_length_eq_zero (by omega)
  subst hl
  rw [List.append_nil] at he
  exact ⟨cm, p, is', log, d, hcm, hn, hi', hb, hd, ho, hx.symm.trans hall, k, h1, h5, he.symm, firmly_eq h7 he.symm h5⟩

/-- The same with the items of the program. -/
theorem run_places {checks : Bool} {depth : Nat} {cfg : Config} {root : Node} {out : Str} (hp : Parsed root)
    (hc : conforms root = true) (h : formatTree checks depth cfg root = .ok out) :
    ∃ cm p is log d, commentMap root = .ok cm ∧ Prog.new { cm, checks } depth .root (Loc.ofRoot root) = .ok p ∧
      p.items cm = .ok (plainItems is, log) ∧ p.build cfg.indentSize cm = .ok (d, log) ∧ d.Items (plainItems is) ∧
      out = layout cfg.maxWidth d ∧ (commentsOf (plainItems is)).Perm (root.extras.map Occ.comment) ∧
      ∃ k, SameX (flatI is) k ∧ codeC k = codeC (cont cm root) ∧ (spots 0 k).Perm (spots 0 (cont cm root)) ∧
        firmly k = firmly (cont cm root) := by
  obtain ⟨cm, p, is, log, d, hcm, hn, hi, r⟩ := run_conts hp hc h
  have hpl := items_plain cm p
  rw [hi] at hpl
  exact ⟨cm, p, is, log, d, hcm, hn, hpl, r⟩

/-- The items of a successful run on a conforming tree. -/
theorem run_items {checks : Bool} {depth : Nat} {cfg : Config} {root : Node} {out : Str} (hp : Parsed root)
    (hc : conforms root = true) (h : formatTree checks depth cfg root = .ok out) :
    ∃ cm p is log d, commentMap root = .ok cm ∧ Prog.new { cm, checks } depth .root (Loc.ofRoot root) = .ok p ∧
      p.items cm = .ok (plainItems is, log) ∧ p.build cfg.indentSize cm = .ok (d, log) ∧ d.Items (plainItems is) ∧
      out = layout cfg.maxWidth d ∧ SameC (inks is) (codeC (cont cm root)) ∧
      (commentsOf (plainItems is)).Perm (root.extras.map Occ.comment) := by
  obtain ⟨cm, p, is, log, d, hcm, hn, hi, hb, hd, ho, hq, k, h1, h2, -⟩ := run_places hp hc h
  exact ⟨cm, p, is, log, d, hcm, hn, hi, hb, hd, ho, h2 ▸ h1.parts.1, hq⟩

/-- The pieces of a successful run on a conforming tree. -/
theorem run_pieces {checks : Bool} {depth : Nat} {cfg : Config} {root : Node} {out : Str} (hp : Parsed root)
    (hc : conforms root = true) (h : formatTree checks depth cfg root = .ok out) :
    ∃ ss, out = renderSegs ss ∧ SegsOk ss ∧ Same (inkI (itemsOf ss)) (code root) ∧
      (commentsOf (itemsOf ss)).Perm (root.extras.map Occ.comment) := by
  obtain ⟨cm, p, is, log, d, _, _, _, _, hd, ho, h1, h2⟩ := run_items hp hc h
  obtain ⟨ss, e1, e2, e3⟩ := layout_segments cfg.maxWidth hd
  have h1 := h1.chars
  rw [chars_cont, charsOf_inks] at h1
  exact ⟨ss, by rw [ho, e1], e3, by rw [e2]; exact h1, by rw [e2]; exact h2⟩

/-- The ways a run on a conforming tree can end. -/
theorem run_total {checks : Bool} {fuel : Nat} {cfg : Config} {root : Node} (hp : Parsed root)
    (hc : conforms root = true) (he : root.hasError = false) :
    match formatTree checks fuel cfg root with
    | .ok _ => cfg.indentSize ≠ 0
    | .error e => (e = .stackOverflow ∧ fuel ≤ 8 * depth root + 2) ∨ (e = .arithmetic ∧ checks = true) ∨
        (e = .indentZero ∧ cfg.indentSize = 0) ∨ (e = .erasedComment ∧ root.extras ≠ []) := by
  obtain ⟨h1, h2, h3, h4⟩ := conforms_root hc
  have hx := conf_extras root _ h4 hp.closed
  obtain ⟨cm, hcm⟩ := ((C14_every_comment_attached_once root hp.closed h2 h3).1).2 hx
  have hall := (C14_every_comment_attached_once root hp.closed h2 h3).2 cm hcm
  have hW := root_content (cfg := { cm, checks }) (good_of hp hc hcm) rfl h4 fuel
  unfold formatTree checkParsed
  simp only [he, Bool.false_eq_true, if_false, hcm, enrichAndPrint]
  cases hn : Prog.new { cm, checks } fuel .root (Loc.ofRoot root) with
  | error e =>
    rw [hn] at hW
    rcases (show Bad _ _ _ e from hW) with h | h
    · exact .inl h
    · exact .inr (.inl h)
  | ok p =>
    rw [hn] at hW
    obtain ⟨is, log, hi, _, _⟩ := (show Sx (items cm p) (cont cm root) from hW).parts
    by_cases hk : cfg.indentSize = 0
    · simp [hk]
    · have hs := build_spec cfg.indentSize cm (commentMap_tidy hcm) p
      rw [items_plain cm p, hi] at hs
      obtain ⟨d, e, _, _⟩ := hs
      simp only [hk, if_false, e, prettyPrint_eq]
      cases hm : noMissingComments cm log with
      | true => simpa using hk
      | false =>
        simp only [Bool.false_eq_true, if_false]
        refine .inr (.inr (.inr ⟨trivial, ?_⟩))
        intro hnil
        rw [hnil] at hall
        have : cm.all = [] := by simpa using hall
        simp [noMissingComments, this] at hm

end Afmt.Gram
