import Verif.Solo.Whole
import Verif.Solo.Lead

/-!
# A file is the sum of its members: putting the members together
-/

namespace Afmt
namespace Solo
open Prog Prog.New

/-- What the whole file knows about a member. -/
structure Member (cm : CMap) (checks : Bool) (k w fuel : Nat) (root : Node) (out : Str) (m : Node) (p : Prog) (d : Doc) (log : List Comment) : Prop where
  new : ∀ lefts rights, (∀ s ∈ rights, s.extra = false ∧ isPunctuationKind s.kind = false) →
    Prog.new ⟨cm, checks⟩ fuel .rootMember ⟨m, [⟨root, lefts, rights⟩]⟩ = .ok p
  build : p.build k cm = .ok (d, log)
  print : out = alone w d
  post : ∃ b, cm.get? m.id = some b ∧ b.post = []

theorem punc_none {m root : Node} {lefts : List Node} : ∀ {rights : List Node}, (∀ s ∈ rights, s.extra = false ∧ isPunctuationKind s.kind = false) →
    Punc.from (graft [⟨root, lefts, rights⟩] ⟨m, []⟩) = none
  | [], _ => rfl
  | s :: ss, h => by
    unfold Punc.from Loc.rightSiblings
    simp only [graft, List.nil_append, Loc.childrenGo, Punc.search]
    have h1 := h s (.head _)
    simp [Loc.extra, Loc.kind, h1.1, h1.2]

theorem begins_of {s : Str} (h : beginsWithText s = true) : Begins s := by
  cases s with
  | nil => cases h
  | cons c t =>
    simp only [beginsWithText, Bool.and_eq_true, bne_iff_ne] at h
    exact ⟨c, t, rfl, h.1, h.2⟩

theorem trail_some {cm : CMap} {checks : Bool} {root m s : Node} {lefts ss : List Node} {b : Bucket} (hb : cm.get? m.id = some b) (hp : b.post = [])
    (hs : s.named = true) (hr : s.startRow ≠ 0) :
    hasTrailingNewline ⟨cm, checks⟩ ⟨m, [⟨root, lefts, s :: ss⟩]⟩ = .ok (decide (m.endRow + 1 < s.startRow)) := by
  have hg : getBucket cm m.id = .ok b := by unfold getBucket; rw [hb]
  have hn : Loc.nextNamedSibling ⟨m, [⟨root, lefts, s :: ss⟩]⟩ = some ⟨s, [⟨root, m :: lefts, ss⟩]⟩ := by
    simp only [Loc.nextNamedSibling, Loc.rightSiblings, Loc.childrenGo, List.find?, Loc.named, hs]
  unfold hasTrailingNewline
  simp only [show Loc.id ⟨m, [⟨root, lefts, s :: ss⟩]⟩ = m.id from rfl, hg, hp, List.getLast?_nil, hn,
    show Loc.startRow ⟨s, [⟨root, m :: lefts, ss⟩]⟩ = s.startRow from rfl, show Loc.endRow ⟨m, [⟨root, lefts, s :: ss⟩]⟩ = m.endRow from rfl, hr, if_false]
  congr 1
  rw [decide_eq_decide]
  omega

theorem trail_none {cm : CMap} {checks : Bool} {root m : Node} {lefts : List Node} {b : Bucket} (hb : cm.get? m.id = some b) (hp : b.post = []) :
    hasTrailingNewline ⟨cm, checks⟩ ⟨m, [⟨root, lefts, []⟩]⟩ = .ok false := by
  have hg : getBucket cm m.id = .ok b := by unfold getBucket; rw [hb]
  unfold hasTrailingNewline
  simp only [show Loc.id ⟨m, [⟨root, lefts, []⟩]⟩ = m.id from rfl, hg, hp, List.getLast?_nil]
  rfl

theorem members_ok {cm : CMap} {checks : Bool} {k w fuel : Nat} {root : Node} {out : Node → Str} :
    ∀ (ms lefts : List Node), ms ≠ [] → (∀ m ∈ ms, m.named = true ∧ m.extra = false ∧ isPunctuationKind m.kind = false) →
    (∀ m ∈ ms.tail, m.startRow ≠ 0) → (∀ m ∈ ms, ∃ p d log, Member cm checks k w fuel root (out m) m p d log) →
    ∃ ps ds log, mapR (bodyMember ⟨cm, checks⟩ (Prog.new ⟨cm, checks⟩ fuel) .rootMember) (Loc.childrenGo ⟨root, []⟩ lefts ms) = .ok ps ∧
      ps.length = ms.length ∧ Prog.builds k cm (bodyParts ps) = .ok (parts ds, log) ∧ ds.length = ms.length ∧
      stack w ds = joinMembers out ms ∧
      (∀ d ∈ ds, ∃ m ∈ ms, ∃ p l, Member cm checks k w fuel root (out m) m p d.2 l) ∧
      (∀ m ∈ ms, ∀ p d l, Member cm checks k w fuel root (out m) m p d l → ∀ c ∈ l, c ∈ log) ∧
      (∀ c ∈ log, ∃ m ∈ ms, ∃ p d l, Member cm checks k w fuel root (out m) m p d l ∧ c ∈ l)
  | [], _, h, _, _, _ => absurd rfl h
  | [m], lefts, _, hm, _, H => by
    obtain ⟨p, d, log, h⟩ := H m (.head _)
    obtain ⟨b, hb, hp⟩ := h.post
    refine ⟨[(false, p)], [(false, d)], log, ?_, rfl, ?_, rfl, ?_, ?_, ?_, fun c hc => ⟨m, .head _, p, d, log, h, hc⟩⟩
    · simp only [Loc.childrenGo, mapR, bodyMember, h.new lefts [] (by simp), trail_none hb hp]
    · simp only [bodyParts, Prog.builds, h.build, parts, List.append_nil]
    · simp only [stack, joinMembers, h.print]
    · intro x hx
      rw [List.mem_singleton] at hx
      subst hx
      exact ⟨m, .head _, p, log, h⟩
    · intro x hx p' d' l' h' c hc
      rw [List.mem_singleton] at hx
      subst hx
      have e1 := (h.new lefts [] (by simp)).symm.trans (h'.new lefts [] (by simp))
      rw [Except.ok.injEq] at e1
      subst e1
      have e2 := h.build.symm.trans h'.build
      rw [Except.ok.injEq, Prod.mk.injEq] at e2
      rw [e2.2]
      exact hc
  | m :: s :: ms, lefts, _, hm, hr, H => by
    obtain ⟨p, d, log, h⟩ := H m (.head _)
    obtain ⟨b, hb, hp⟩ := h.post
    have hnp : ∀ x ∈ s :: ms, x.extra = false ∧ isPunctuationKind x.kind = false := fun x hx => (hm x (.tail _ hx)).2
    have hnew := h.new lefts (s :: ms) hnp
    obtain ⟨ps, ds, log', i1, i2, i3, i4, i5, i6, i7, i8⟩ := members_ok (s :: ms) (m :: lefts) (by simp) (fun x hx => hm x (.tail _ hx))
      (fun x hx => hr x (.tail _ hx)) (fun x hx => H x (.tail _ hx))
    have ht := trail_some (checks := checks) (root := root) (lefts := lefts) (ss := ms) hb hp (hm s (.tail _ (.head _))).1 (hr s (.head _))
    cases ps with
    | nil => cases i2
    | cons p2 ps =>
      cases ds with
      | nil => cases i4
      | cons d2 ds =>
        refine ⟨(decide (m.endRow + 1 < s.startRow), p) :: p2 :: ps, (decide (m.endRow + 1 < s.startRow), d) :: d2 :: ds, log ++ log', ?_, ?_, ?_, ?_, ?_, ?_, ?_, ?_⟩
        · rw [Loc.childrenGo]
          simp only [mapR, bodyMember, hnew, ht, i1]
        · simp only [List.length_cons] at i2 ⊢; omega
        · have e1 : ∀ (t : Bool), bodyParts ((t, p) :: p2 :: ps) = p :: .sep t :: bodyParts (p2 :: ps) := fun _ => rfl
          have e2 : ∀ (t : Bool), parts ((t, d) :: d2 :: ds) = d :: (if t then emptyNewLine else nl) :: parts (d2 :: ds) := fun _ => rfl
          rw [e1, e2]
          simp only [Prog.builds, Prog.build, h.build, i3, List.nil_append]
        · simp only [List.length_cons] at i4 ⊢; omega
        · have e1 : ∀ (t : Bool), stack w ((t, d) :: d2 :: ds) = alone w d ++ (if t then ['\n'] else []) ++ stack w (d2 :: ds) := fun _ => rfl
          rw [e1, i5, joinMembers, h.print]
          simp only [decide_eq_true_eq]
        · intro x hx
          cases hx with
          | head => exact ⟨m, .head _, p, log, h⟩
          | tail _ hx => obtain ⟨y, hy, e⟩ := i6 x hx; exact ⟨y, .tail _ hy, e⟩
        · intro x hx p' d' l' h' c hc
          cases hx with
          | head =>
            have e1 := hnew.symm.trans (h'.new lefts (s :: ms) hnp)
            rw [Except.ok.injEq] at e1
            subst e1
            have e2 := h.build.symm.trans h'.build
            rw [Except.ok.injEq, Prod.mk.injEq] at e2
            rw [e2.2]
            exact List.mem_append_left _ hc
          | tail _ hx => exact List.mem_append_right _ (i7 x hx p' d' l' h' c hc)
        · intro c hc
          rcases List.mem_append.1 hc with hc | hc
          · exact ⟨m, .head _, p, d, log, h, hc⟩
          · obtain ⟨y, hy, e⟩ := i8 c hc
            exact ⟨y, .tail _ hy, e⟩

theorem childrenVec_all {root : Node} (h : ∀ m ∈ root.children, m.named = true ∧ m.extra = false) :
    (Loc.ofRoot root).childrenVec = Loc.childrenGo ⟨root, []⟩ [] root.children := by
  have go : ∀ (ms lefts : List Node), (∀ m ∈ ms, m.named = true ∧ m.extra = false) →
      ((Loc.childrenGo ⟨root, []⟩ lefts ms).filter (·.named)).filter (fun c => !c.extra) = Loc.childrenGo ⟨root, []⟩ lefts ms := by
    intro ms
    induction ms with
    | nil => intro lefts _; rfl
    | cons m ms ih =>
      intro lefts hm
      have h1 := hm m (.head _)
      rw [Loc.childrenGo]
      simp only [List.filter, Loc.named, Loc.extra, h1.1, h1.2, Bool.not_false]
      have := ih (m :: lefts) (fun x hx => hm x (.tail _ hx))
      simp only [Loc.named, Loc.extra] at this
      rw [this]
  exact go root.children [] h

theorem kids_error : ∀ (ms : List Node), (∀ m ∈ ms, m.hasError = false) → kidsHaveError ms = false
  | [], _ => rfl
  | m :: ms, h => by
    rw [kidsHaveError, h m (.head _), kids_error ms (fun x hx => h x (.tail _ hx))]
    rfl

theorem mem_idsOf' {i : Nat} : ∀ {ns : List Node}, i ∈ idsOf ns → ∃ c ∈ ns, i ∈ c.ids
  | [], h => by simp [idsOf] at h
  | n :: ns, h => by
    rw [idsOf, List.mem_append] at h
    rcases h with h | h
    · exact ⟨n, .head _, h⟩
    · obtain ⟨c, hc, hi⟩ := mem_idsOf' h
      exact ⟨c, .tail _ hc, hi⟩

theorem nodup_child : ∀ {ns : List Node} {c : Node}, (idsOf ns).Nodup → c ∈ ns → c.ids.Nodup
  | _ :: _, _, h, .head _ => by rw [idsOf, List.nodup_append] at h; exact h.1
  | _ :: _, _, h, .tail _ hc => by rw [idsOf, List.nodup_append] at h; exact nodup_child h.2.1 hc

theorem whole_ran {checks : Bool} {depth : Nat} {cfg : Config} {root : Node} {out : Node → Str} (hids : root.ids.Nodup) (hne : root.children ≠ [])
    (hm : ∀ m ∈ root.children, m.named = true ∧ m.extra = false) (hr : ∀ m ∈ root.children.tail, m.startRow ≠ 0)
    (hout : ∀ m ∈ root.children, ∃ cm log, Ran checks depth cfg (root.only m) (out m) cm log) :
    ∃ text C log, Ran checks depth cfg root text C log ∧
      ((∀ m ∈ root.children, beginsWithText (out m) = true ∨ m.extras = []) → text = joinMembers out root.children) ∧
      (∀ m ∈ root.children, ∀ cm l, Ran checks depth cfg (root.only m) (out m) cm l → (∀ c ∈ l, c ∈ log) ∧ ∀ c ∈ cm.all, c ∈ C.all) ∧
      (∀ c ∈ log, ∃ m ∈ root.children, ∃ cm l, Ran checks depth cfg (root.only m) (out m) cm l ∧ c ∈ l) ∧
      (∀ c ∈ C.all, ∃ m ∈ root.children, ∃ cm l, Ran checks depth cfg (root.only m) (out m) cm l ∧ c ∈ cm.all) := by
  rw [ids_eq, List.nodup_cons] at hids
  have hrid : ∀ m ∈ root.children, root.id ∉ m.ids := fun m hmm h => hids.1 (mem_idsOf hmm h)
  obtain ⟨m0, hm0⟩ := List.exists_mem_of_ne_nil _ hne
  obtain ⟨cm0, log0, hran0⟩ := hout m0 hm0
  obtain ⟨hkind, hv, fuel, rfl, _⟩ := one_of_ran (hm m0 hm0) (hrid m0 hm0) hran0
  have he0 := hran0.noError
  have hk := hran0.indent
  have hone : ∀ m ∈ root.children, ∀ cm l, Ran checks (fuel + 1) cfg (root.only m) (out m) cm l →
      ∃ p d, One checks cfg.indentSize cfg.maxWidth fuel root m (out m) cm p d l := by
    intro m hmm cm l h
    obtain ⟨_, _, f, hf, h2⟩ := one_of_ran (hm m hmm) (hrid m hmm) h
    have : fuel = f := by omega
    subst this
    exact h2
  have H : ∀ m ∈ root.children, (root.only m).hasError = false ∧ ∃ cm p d log, One checks cfg.indentSize cfg.maxWidth fuel root m (out m) cm p d log := by
    intro m hmm
    obtain ⟨cm, l, h⟩ := hout m hmm
    obtain ⟨p, d, h2⟩ := hone m hmm cm l h
    exact ⟨h.noError, cm, p, d, l, h2⟩
  -- the comment map
  have hcol : ∀ m ∈ root.children, ∃ a, collect m (base root) = .ok a := by
    intro m hmm
    obtain ⟨_, cm, p, d, log, h⟩ := H m hmm
    obtain ⟨a, ha, _⟩ := only_map hv (hm m hmm) h.map
    exact ⟨a, ha⟩
  obtain ⟨b, hcols, hag, hframe⟩ := collects_ok (base root) root.id root.children (base root) hcol hids.2 hids.1 (fun _ _ => rfl)
  have hown : ∀ m ∈ root.children, ∀ a, collect m (base root) = .ok a → ∃ x, a.get? m.id = some x ∧ x.post = [] := by
    intro m hmm a ha
    have h1 := hm m hmm
    refine (collect_both m _ a ha).2 (nodup_child hids.2 hmm) (by simp [isVisited, h1.1, h1.2]) ?_
    rw [base_get, if_neg (fun e : m.id = root.id => hrid m hmm (e ▸ id_mem m))]
  have hkids := collects_kids root.children [] (base root) b none hm hcols
  have hcm := collect_node (n := root) (cm := []) hv hne hkids
  obtain ⟨ml, hml, hlast⟩ := lastOf_mem root.children none hne
  have hfin : finishPending root.id ⟨b, [], lastOf none root.children⟩ = b.update (Bucket.addPost []) ml.id := by
    unfold finishPending
    simp only [hlast]
  rw [hfin] at hcm
  have hget : ∀ i, (b.update (Bucket.addPost []) ml.id).get? i = b.get? i := by
    obtain ⟨a, ha⟩ := hcol ml hml
    obtain ⟨x, hx, _⟩ := hown ml hml a ha
    exact get_touch (b := x) (by rw [← hag ml hml a ha ml.id (.inl (id_mem ml)), hx])
  have hmcm : commentMap root = .ok (b.update (Bucket.addPost []) ml.id) := hcm
  generalize hC : b.update (Bucket.addPost []) ml.id = C at hcm hget hmcm
  -- the map of a member is the part of the map that belongs to the member
  have hpart : ∀ m ∈ root.children, ∀ cm, commentMap (root.only m) = .ok cm →
      (∀ i, i ∈ m.ids ∨ i = root.id → C.get? i = cm.get? i) ∧ Sub cm C := by
    intro m hmm cm h
    obtain ⟨a, ha, rfl⟩ := only_map hv (hm m hmm) h
    obtain ⟨x, hx, _⟩ := hown m hmm a ha
    have h1 : ∀ i, i ∈ m.ids ∨ i = root.id → C.get? i = (a.update (Bucket.addPost []) m.id).get? i := by
      intro i hi
      rw [get_touch hx, hget, hag m hmm a ha i hi]
    refine ⟨h1, ?_⟩
    intro i y hy
    by_cases hi : i ∈ m.ids ∨ i = root.id
    · rw [h1 i hi]; exact hy
    · rw [not_or] at hi
      rw [get_touch hx, collect_frame m _ a ha i hi.1, base_get, if_neg hi.2] at hy
      cases hy
  have hkindm : ∀ m ∈ root.children, isPunctuationKind m.kind = false := by
    intro m hmm
    obtain ⟨_, cm, p, d, log, h⟩ := H m hmm
    exact memberKind_punc (top_kind h.new)
  have hmem : ∀ m ∈ root.children, ∀ cm p d log, One checks cfg.indentSize cfg.maxWidth fuel root m (out m) cm p d log →
      Member C checks cfg.indentSize cfg.maxWidth fuel root (out m) m p d log := by
    intro m hmm cm p d log h
    obtain ⟨h1, h2⟩ := hpart m hmm cm h.map
    refine ⟨?_, build_sub h2 _ p _ h.build, h.print, ?_⟩
    · intro lefts rights hri
      have := new_top (m := m) (q := [⟨root, lefts, rights⟩]) (checks := checks) (fun i hi => h1 i (.inl hi)) (punc_none hri) fuel
      exact this.trans h.new
    · obtain ⟨a, ha⟩ := hcol m hmm
      obtain ⟨x, hx, hp⟩ := hown m hmm a ha
      exact ⟨x, by rw [hget, ← hag m hmm a ha m.id (.inl (id_mem m)), hx], hp⟩
  obtain ⟨ps, ds, log, k1, k2, k3, k4, k5, k6, k7, k8⟩ := members_ok (cm := C) (checks := checks) (k := cfg.indentSize) (w := cfg.maxWidth) (fuel := fuel)
    (root := root) (out := out) root.children [] hne (fun m hmm => ⟨(hm m hmm).1, (hm m hmm).2, hkindm m hmm⟩) hr (by
      intro m hmm
      obtain ⟨_, cm, p, d, log, h⟩ := H m hmm
      exact ⟨p, d, log, hmem m hmm cm p d log h⟩)
  have herr := root_error.2 ⟨(only_error.1 he0).1, kids_error _ (fun m hmm => (only_error.1 (H m hmm).1).2)⟩
  have hroot : Prog.new ⟨C, checks⟩ (fuel + 1) .root (Loc.ofRoot root) =
      .ok (.ifDangling root.id (.rootDangling root.id) (.concat [intersperseBody ps, .nl])) := by
    show Prog.New.root _ _ _ = _
    unfold Prog.New.root assertCheck
    rw [if_pos (by rw [beq_iff_eq]; exact hkind), childrenVec_all hm]
    simp only [bind, Except.bind, k1]
    rfl
  have hg : getBucket C root.id = .ok Bucket.empty := by
    unfold getBucket
    rw [hget, hframe _ hids.1, base_get, if_pos rfl]
  have hps : ps ≠ [] := by
    rintro rfl
    exact hne (List.length_eq_zero_iff.1 k2.symm)
  have hds : ds ≠ [] := by
    rintro rfl
    exact hne (List.length_eq_zero_iff.1 k4.symm)
  have hib : intersperseBody ps = .concat (bodyParts ps) := by
    cases ps with
    | nil => exact absurd rfl hps
    | cons _ _ => rfl
  have hbuild : (Prog.ifDangling root.id (.rootDangling root.id) (.concat [intersperseBody ps, .nl])).build cfg.indentSize C =
      .ok (.concat [.concat (parts ds), nl], log) := by
    simp only [Prog.build, hg, Bucket.empty, ne_eq, not_true, if_false, Prog.builds, hib, k3, List.append_nil]
  have hlay : (∀ m ∈ root.children, beginsWithText (out m) = true ∨ m.extras = []) →
      layout cfg.maxWidth (.concat [.concat (parts ds), nl]) = joinMembers out root.children := by
    intro hb
    have h := stack_out cfg.maxWidth ds hds (by
      intro d hd
      obtain ⟨m, hmm, p, l, e⟩ := k6 d hd
      rcases hb m hmm with hb | hb
      · exact .inl (by rw [← e.print]; exact begins_of hb)
      · obtain ⟨_, cm, p', d', l', h⟩ := H m hmm
        have e' := hmem m hmm cm p' d' l' h
        have q1 := (e.new [] [] (by simp)).symm.trans (e'.new [] [] (by simp))
        rw [Except.ok.injEq] at q1
        subst q1
        have q2 := e.build.symm.trans e'.build
        rw [Except.ok.injEq, Prod.mk.injEq] at q2
        rw [q2.1]
        obtain ⟨a, ha, hcma⟩ := only_map hv (hm m hmm) h.map
        have hq : Quiet cm := by
          rw [hcma]
          refine quiet_update (collect_quiet m _ a ha hb ?_) rfl _
          intro i b h
          rw [base_get] at h
          split at h
          · cases h; rfl
          · cases h
        exact .inr ((build_lead hq _ p d' l' h.build).trans (member_lead h.new))) PSt.init [] .start [⟨nl, 0, false⟩] (stops_nl 0 false [])
    rw [← k5, show stack cfg.maxWidth ds = [] ++ stack cfg.maxWidth ds from rfl, ← h]
    simp only [layout, pr, prs, List.map_cons, List.map_nil, List.nil_append, List.cons_append]
    simp only [nl, pr, PSt.flush, spaces, List.replicate_zero]
  refine ⟨_, C, log, ⟨herr, hmcm, hk, _, _, hroot, hbuild, rfl⟩, hlay, ?_, ?_, ?_⟩
  · intro m hmm cm l h
    obtain ⟨p, d, h1⟩ := hone m hmm cm l h
    refine ⟨k7 m hmm p d l (hmem m hmm cm p d l h1), ?_⟩
    intro c hc
    unfold CMap.all at hc ⊢
    rw [List.mem_flatten] at hc
    obtain ⟨l, hl, hc⟩ := hc
    obtain ⟨⟨i, x⟩, hix, rfl⟩ := List.mem_map.1 hl
    have hi := (get_mem (collect_nodup (root.only m) [] cm h.map (by simp [KeysNodup])) i x).2 hix
    have hix' := (get_mem (collect_nodup root [] C hcm (by simp [KeysNodup])) i x).1 ((hpart m hmm cm h.map).2 i x hi)
    exact List.mem_flatten.2 ⟨_, List.mem_map_of_mem (f := fun p : Nat × Bucket => p.2.all) hix', hc⟩
  · intro c hc
    obtain ⟨m, hmm, p, d, l, e, hcl⟩ := k8 c hc
    obtain ⟨cm, l', h⟩ := hout m hmm
    obtain ⟨p', d', h1⟩ := hone m hmm cm l' h
    have e' := hmem m hmm cm p' d' l' h1
    have q1 := (e.new [] [] (by simp)).symm.trans (e'.new [] [] (by simp))
    rw [Except.ok.injEq] at q1
    subst q1
    have q2 := e.build.symm.trans e'.build
    rw [Except.ok.injEq, Prod.mk.injEq] at q2
    exact ⟨m, hmm, cm, l', h, q2.2 ▸ hcl⟩
  · intro c hc
    unfold CMap.all at hc
    rw [List.mem_flatten] at hc
    obtain ⟨l, hl, hc⟩ := hc
    obtain ⟨⟨i, x⟩, hix, rfl⟩ := List.mem_map.1 hl
    have hi := (get_mem (collect_nodup root [] C hcm (by simp [KeysNodup])) i x).2 hix
    have : ∃ m ∈ root.children, i ∈ m.ids ∨ i = root.id := by
      by_cases h1 : i ∈ idsOf root.children
      · obtain ⟨m, hmm, h2⟩ := mem_idsOf' h1
        exact ⟨m, hmm, .inl h2⟩
      · rw [hget, hframe i h1, base_get] at hi
        by_cases h2 : i = root.id
        · exact ⟨m0, hm0, .inr h2⟩
        · rw [if_neg h2] at hi; cases hi
    obtain ⟨m, hmm, h2⟩ := this
    obtain ⟨cm, l, h⟩ := hout m hmm
    rw [(hpart m hmm cm h.map).1 i h2] at hi
    have hix' := (get_mem (collect_nodup (root.only m) [] cm h.map (by simp [KeysNodup])) i x).1 hi
    refine ⟨m, hmm, cm, l, h, ?_⟩
    unfold CMap.all
    exact List.mem_flatten.2 ⟨_, List.mem_map_of_mem (f := fun p : Nat × Bucket => p.2.all) hix', hc⟩

theorem whole {checks : Bool} {depth : Nat} {cfg : Config} {root : Node} {out : Node → Str} (hids : root.ids.Nodup) (hne : root.children ≠ [])
    (hm : ∀ m ∈ root.children, m.named = true ∧ m.extra = false) (hr : ∀ m ∈ root.children.tail, m.startRow ≠ 0)
    (hout : ∀ m ∈ root.children, formatTree checks depth cfg (root.only m) = .ok (out m))
    (hb : ∀ m ∈ root.children, beginsWithText (out m) = true ∨ m.extras = []) :
    formatTree checks depth cfg root = .ok (joinMembers out root.children) := by
  obtain ⟨text, C, log, h1, h2, h3, _, h5⟩ := whole_ran hids hne hm hr (fun m hmm => by
    obtain ⟨cm, log, h, _⟩ := ran_of_ok (hout m hmm)
    exact ⟨cm, log, h⟩)
  rw [← h2 hb]
  refine h1.ok (fun c hc => ?_)
  obtain ⟨m, hmm, cm, l, h, hcc⟩ := h5 c hc
  obtain ⟨cm', l', h', hall⟩ := ran_of_ok (hout m hmm)
  obtain ⟨_, rfl, rfl⟩ := h.det h'
  exact (h3 m hmm cm l h).1 c (hall c hcc)

/-! ### Changing one member -/

/-- The text before a member that begins in row `r`. -/
def textBefore (out : Node → Str) (r : Nat) : List Node → Str
  | [] => []
  | [m] => out m ++ (if m.endRow + 1 < r then ['\n'] else [])
  | m :: m' :: ms => out m ++ (if m.endRow + 1 < m'.startRow then ['\n'] else []) ++ textBefore out r (m' :: ms)

/-- The text after a member that ends in row `e`. -/
def textAfter (out : Node → Str) (e : Nat) : List Node → Str
  | [] => []
  | m :: ms => (if e + 1 < m.startRow then ['\n'] else []) ++ joinMembers out (m :: ms)

theorem join_split (out : Node → Str) (m : Node) (ys : List Node) : ∀ xs : List Node,
    joinMembers out (xs ++ m :: ys) = textBefore out m.startRow xs ++ out m ++ textAfter out m.endRow ys
  | [] => by
    cases ys with
    | nil => simp [joinMembers, textBefore, textAfter]
    | cons y ys => simp [joinMembers, textBefore, textAfter]
  | [x] => by
    have h := join_split out m ys []
    rw [List.nil_append] at h
    simp only [List.cons_append, List.nil_append, joinMembers, textBefore, h, List.append_assoc]
  | x :: x' :: xs => by
    have h := join_split out m ys (x' :: xs)
    simp only [List.cons_append] at h
    simp only [List.cons_append, joinMembers, textBefore, h, List.append_assoc]

theorem withMembers_children (r : Node) (ms : List Node) : (r.withMembers ms).children = ms := by cases r; rfl
theorem withMembers_only (r : Node) (ms : List Node) (m : Node) : (r.withMembers ms).only m = r.only m := by cases r; rfl

end Solo
end Afmt
