import Verif.Levels.Pass1

/-!
# Levels of members with comments before and after them
-/

namespace Afmt.Levels
open Gram hiding inner full
open Prog New
open Afmt.Lines (All All2 Silent)
open Afmt.Notes (Note Mem Blk Blks Owned Sound noteOf notesOf lastN flat linesOf Role Roles PreRoles PostRoles bucketOf sound_note notes_props
  apart_pre apart_drop apart_last flat_cons lastN_append)

section
variable {root : Node} {ro : Comment → Role} {cm : CMap} {cfg : Cfg} {rec : Rec} {k : Nat} {l : Loc} {m : Nat}

/-! ### The text of a comment -/

theorem fin_written (o : Option Nat) (s : Str) : fin o (written s) = none := by
  unfold written
  split
  · rfl
  · rename_i h
    have : (ink s).length ≠ 0 := by simpa using h
    obtain ⟨n, hn⟩ := Nat.exists_eq_succ_of_ne_zero this
    rw [hn, List.replicate_succ]
    show fin none (List.replicate n .note) = none
    clear hn
    induction n with
    | zero => rfl
    | succ n ih => rw [List.replicate_succ]; exact ih

theorem fin_remark (j : Nat) : ∀ {ls : List Str} (o : Option Nat), ls ≠ [] → fin o (remark j ls) = none
  | [], _, h => absurd rfl h
  | [l], o, _ => fin_written o l
  | l :: l' :: ls, o, _ => by
    rw [remark, fin_append, fin_written]
    exact fin_remark j _ (by simp)
    intro h; cases h

theorem lines_ev (j : Nat) : ∀ {ls : List Str}, (∀ l ∈ ls, '\n' ∉ l) → (lineMks j ls).flatMap evS = remark j ls
  | [], _ => rfl
  | [l], h => by
    have := h l List.mem_cons_self
    simp [lineMks, evS, remark, this]
  | l :: l' :: ls, h => by
    have h1 := h l List.mem_cons_self
    have ih := lines_ev j (ls := l' :: ls) (fun x hx => h x (List.mem_cons_of_mem _ hx))
    have e : lineMks j (l :: l' :: ls) = .note l :: .line .cut j :: lineMks j (l' :: ls) := rfl
    have e' : remark j (l :: l' :: ls) = written l ++ .line j :: remark j (l' :: ls) := rfl
    rw [e, e', List.flatMap_cons, List.flatMap_cons, ih]
    simp [evS, h1]

/-- The line break after a line comment. -/
def cut (j : Nat) (c : Comment) : List Ev := if c.type = .line then [.line j] else []

theorem text_ev (j : Nat) {c : Comment} (h : Sound c) : (textMks j c).flatMap evS = remark j (linesOf c) ++ cut j c := by
  have hl := h.lines
  unfold textMks cut
  unfold linesOf at hl ⊢
  cases hc : c.type with
  | line =>
    rw [hc] at hl
    have := hl c.value (by simp)
    simp [evS, remark, this]
  | block =>
    rw [hc] at hl
    simpa using lines_ev j hl

theorem linesOf_note (p x : Option Node) (c : Node) : linesOf (noteOf p c x) = drawn c := by
  unfold linesOf noteOf drawn
  dsimp only
  by_cases h : (c.kind == "line_comment") = true
  · rw [if_pos h, if_pos h]
  · rw [if_neg h, if_neg h]

theorem drawn_ne {c : Node} (h : Note c) : drawn c ≠ [] := by
  obtain ⟨l, ls, h1, _⟩ := (sound_note (p := none) (x := none) h).first
  rw [linesOf_note] at h1
  rw [h1]; simp

/-- A comment in a line of its own. -/
theorem chunk {c : Node} (h : Note c) {j : Nat} {o : List Ev} (ho : o = [] ∨ o = [.line j]) {A : List Ev} (hA : A = [] ∧ o = [] ∨ A = [.line j]) :
    Sim (A ++ remark j (drawn c)) (o ++ remark j (drawn c)) := by
  have hs : ∀ {e : List Ev}, Sim (A ++ remark j (drawn c)) (e ++ remark j (drawn c)) → e = o → Sim (A ++ remark j (drawn c)) (o ++ remark j (drawn c)) :=
    fun h e => e ▸ h
  have h0 : Sim (remark j (drawn c)) (remark j (drawn c)) := sim_self (fin_remark j none (drawn_ne h))
  rcases hA with ⟨rfl, rfl⟩ | rfl
  · exact h0
  · rcases ho with rfl | rfl
    · exact sim_skip rfl rfl h0
    · exact sim_self (fin_remark j (some j) (drawn_ne h))

theorem cut_cnt (j : Nat) (c : Comment) : cntC (cut j c) = 0 ∧ cntN (cut j c) = 0 := by
  unfold cut
  split <;> exact ⟨rfl, rfl⟩

/-! ### Comments before a member -/

/-- Events of comments. -/
def comEv (ro : Comment → Role) (j : Nat) (cs : List Comment) : List Ev := (cs.flatMap (fun c => comMks j (ro c) c)).flatMap evS

theorem comEv_cons (j : Nat) (c : Comment) (cs : List Comment) : comEv ro j (c :: cs) = (comMks j (ro c) c).flatMap evS ++ comEv ro j cs := by
  simp [comEv]

theorem ev_pre (k j id : Nat) : ev ro cm k j (.pre id) = comEv ro j (bucketOf cm id).pre := by rw [ev, marked]; rfl

theorem ev_post (k j id : Nat) : ev ro cm k j (.post id) = comEv ro j (bucketOf cm id).post := by rw [ev, marked]; rfl

variable {i j : Nat} {la : Lay}

theorem opening_cases (hla : ∀ c : Node, c.named = true → place k i la c = (some j, j)) (p : Option Node) {c : Node} (hc : c.named = true) :
    opening k i la p c = [] ∨ opening k i la p c = [.line j] := by
  unfold opening
  split
  · exact .inl rfl
  · rw [hla c hc]; exact .inr rfl

theorem nesteds_note (hla : ∀ c : Node, c.named = true → place k i la c = (some j, j)) (p : Option Node) {c : Node} (hc : Note c) (cs : List Node) :
    nesteds k i la p (c :: cs) = (opening k i la p c ++ remark j (drawn c)) ++ nesteds k i la (some c) cs := by
  rw [nesteds, hla c hc.named, nested_extra hc.extra, if_pos hc.named]

theorem pre_sim (hla : ∀ c : Node, c.named = true → place k i la c = (some j, j)) {x : Option Node} {Z T : List Ev}
    (hZ : Sim (.line j :: Z) T) : ∀ {cs : List Node} {p : Option Node} {first : Bool}, (∀ c ∈ cs, Note c) → PreRoles ro first (notesOf p cs x) →
    cs ≠ [] ∨ first = true →
    Sim ((if first then [.line j] else []) ++ comEv ro j (notesOf p cs x) ++ Z) (nesteds k i la p cs ++ T)
  | [], p, first, _, _, h => by
    rcases h with h | rfl
    · exact absurd rfl h
    · simpa [notesOf, comEv, nesteds] using hZ
  | c :: cs, p, first, hn, hr, _ => by
    have hc := hn c List.mem_cons_self
    have hS := sound_note (p := p) (x := cs.head?.or x) hc
    rw [notesOf, PreRoles] at hr
    obtain ⟨_, _, hl, ht, hr⟩ := hr
    rw [notesOf, comEv_cons, nesteds_note hla p hc]
    have e : (if first then [Ev.line j] else []) ++ (comMks j (ro (noteOf p c (cs.head?.or x))) (noteOf p c (cs.head?.or x))).flatMap evS =
        ([.line j] ++ remark j (drawn c)) ++ cut j (noteOf p c (cs.head?.or x)) ++ (if cs = [] then [.line j] else []) := by
      have e1 := text_ev j hS
      rw [linesOf_note] at e1
      unfold comMks
      rw [hl, ht, List.flatMap_append]
      have e2 : notesOf (some c) cs x = [] ↔ cs = [] := by cases cs <;> simp [notesOf]
      by_cases hcs : cs = []
      · rw [if_pos (e2.2 hcs), if_pos hcs]
        cases first <;> simp [e1, evS]
      · rw [if_neg (fun h => hcs (e2.1 h)), if_neg hcs]
        cases first <;> simp [e1, evS]
    rw [← List.append_assoc, e, List.append_assoc, List.append_assoc, List.append_assoc, List.append_assoc (opening k i la p c ++ _)]
    refine (chunk hc (opening_cases hla p hc.named) (.inr rfl)).append ?_
    refine sim_skip (cut_cnt ..).1 (cut_cnt ..).2 ?_
    by_cases hcs : cs = []
    · subst hcs
      simpa [notesOf, comEv, nesteds] using hZ
    · rw [if_neg hcs]
      have := pre_sim hla hZ (p := some c) (first := false) (fun y hy => hn y (List.mem_cons_of_mem _ hy)) hr (.inl hcs)
      simpa using this

/-! ### Comments after a member -/

theorem eol_sim {v : Str} (j : Nat) : Sim (.gap :: List.replicate (ink v).length .note ++ [.line j]) (written v) := by
  have h0 : Sim (.gap :: List.replicate (ink v).length .note) (written v) := by
    refine ⟨fun o => ?_, fin_written _ _, ?_⟩
    · show Meets (wanted none (List.replicate (ink v).length .note)) _
      unfold written
      split
      · rename_i h
        rw [List.isEmpty_iff] at h
        rw [h]
        exact Meets.refl _
      · exact Meets.refl _
    · rw [(cnt_written v).1]
      show cntC (List.replicate (ink v).length .note) = 0
      exact cntC_notes _
  exact h0.skip rfl rfl

theorem post_sim (hla : ∀ c : Node, c.named = true → place k i la c = (some j, j)) {x : Option Node} :
    ∀ {cs : List Node} {p : Option Node}, (∀ c ∈ cs, Note c) → apartRows (p.toList ++ (cs ++ x.toList)) = true → PostRoles ro (notesOf p cs x) →
    Sim (comEv ro j (notesOf p cs x)) (nesteds k i la p cs)
  | [], p, _, _, _ => by
    rw [notesOf, nesteds]
    exact sim_nil
  | c :: cs, p, hn, ha, hr => by
    have hc := hn c List.mem_cons_self
    have hS := sound_note (p := p) (x := cs.head?.or x) hc
    have hp := (notes_props (c :: cs) p x hn ha).2.2 _ c _ rfl rfl
    have ha' : apartRows ((some c).toList ++ (cs ++ x.toList)) = true := by
      cases p with
      | none => exact ha
      | some q => exact apart_drop (a := [q]) ha
    rw [notesOf, PostRoles] at hr
    obtain ⟨_, ht, hl, hty, hr⟩ := hr
    rw [notesOf, comEv_cons, nesteds_note hla p hc]
    refine Sim.append ?_ (post_sim hla (fun y hy => hn y (List.mem_cons_of_mem _ hy)) ha' hr)
    unfold comMks
    rw [ht, hl]
    cases hlead : (noteOf p c (cs.head?.or x)).meta'.hasLeadingContent with
    | false =>
      have e1 := text_ev j hS
      rw [linesOf_note] at e1
      have e : ((Mk.sep (noteOf p c (cs.head?.or x)).meta'.hasEmptyLineAbove j :: textMks j (noteOf p c (cs.head?.or x))) ++ []).flatMap evS =
          ([.line j] ++ remark j (drawn c)) ++ cut j (noteOf p c (cs.head?.or x)) := by
        rw [List.append_nil, List.flatMap_cons, e1]; rfl
      refine (congrArg (fun e => Sim e _) e).mpr ?_
      exact (chunk hc (opening_cases hla p hc.named) (.inr rfl)).skip (cut_cnt ..).1 (cut_cnt ..).2
    | true =>
      obtain ⟨q, hq, hat⟩ := hp hlead
      have ho : opening k i la p c = [] := by
        rw [opening, hq]
        simp [hat]
      have hd : drawn c = [(noteOf p c (cs.head?.or x)).value] := by
        rw [← linesOf_note p (cs.head?.or x) c, linesOf, hty hlead]
      rw [ho, hd]
      exact eol_sim j

/-! ### Members -/

theorem nesteds_append (k i : Nat) (la : Lay) : ∀ {a : List Node} (b : List Node) (p : Option Node), (∀ c ∈ a, c.named = true) →
    nesteds k i la p (a ++ b) = nesteds k i la p a ++ nesteds k i la (lastN p a) b
  | [], b, p, _ => by rw [List.nil_append, nesteds, List.nil_append, lastN]
  | c :: a, b, p, h => by
    rw [List.cons_append, nesteds, nesteds, if_pos (h c List.mem_cons_self), nesteds_append k i la b _ (fun x hx => h x (List.mem_cons_of_mem _ hx)),
      lastN, List.append_assoc, List.append_assoc, List.append_assoc]

theorem blocks_sim (R : Roles ro cm) (hla : ∀ c : Node, c.named = true → place k i la c = (some j, j)) :
    ∀ {bs : List Blk} {p : Option Node} {xs : List Loc} {ps : List Prog}, Blks p bs → apartRows (p.toList ++ flat bs) = true → Owned cm p bs →
    bs.map Blk.m = xs.map Loc.node → All2 (fun q z => Lv ro cm k z q ∧ Fresh ro cm k z q) ps xs → (∀ z ∈ xs, tl cm z = []) →
    (∀ z ∈ xs, All (Fit cm) z.node) →
    Sim (ps.flatMap (fun q => .line j :: ev ro cm k j q)) (nesteds k i la p (flat bs))
  | [], p, xs, ps, _, _, _, he, h2, _, _ => by
    cases xs with
    | cons _ _ => cases he
    | nil => cases h2; rw [Notes.flat_nil, nesteds]; exact sim_nil
  | b :: bs, p, xs, ps, hb, ha, ho, he, h2, ht, hf => by
    cases xs with
    | nil => cases he
    | cons z xs =>
    cases h2 with
    | @cons q _ ps _ hq h2 =>
    cases hb with
    | cons h1 hm h3 h4 h5 h6 =>
    rw [List.map_cons, List.map_cons, List.cons.injEq] at he
    obtain ⟨hz, he⟩ := he
    have hid : z.id = b.m.id := by rw [hz]; rfl
    rw [flat_cons] at ha
    have ha2 : apartRows (b.m :: (b.post ++ flat bs)) = true := by
      have := ha
      rw [← List.append_assoc] at this
      exact apart_drop this
    have ha3 : apartRows ((lastN (some b.m) b.post).toList ++ flat bs) = true := apart_last ha2
    have ha4 : apartRows ((some b.m).toList ++ (b.post ++ (flat bs).head?.toList)) = true := by
      cases hf : flat bs with
      | nil => rw [hf] at ha2; simpa using ha2
      | cons y r =>
        have : apartRows ((b.m :: (b.post ++ [y])) ++ r) = true := by rw [hf] at ha2; simpa [List.append_assoc] using ha2
        exact apart_pre this
    have hpre := R.pre z.id
    have hpost := R.post z.id
    obtain ⟨Y, hF, hY⟩ := hq.1
    have hev := hF.ev j
    rw [ev_pre, ev_post] at hev
    rw [hid, ho.1] at hpre hpost hev
    have ih := blocks_sim R hla h6 ha3 ho.2 he h2 (fun y hy => ht y (List.mem_cons_of_mem _ hy)) (fun y hy => hf y (List.mem_cons_of_mem _ hy))
    have s1 := hY j
    rw [ht z List.mem_cons_self, List.append_nil] at s1
    have hex : z.node.extra = false := by rw [← hz]; exact hm.2.1
    have hAll := hf z List.mem_cons_self
    have s2 := sim_line s1 (hq.2 Y hF j) (nested_ne k hAll j hex) (nested_shift k hAll j hex) j
    have s3 := post_sim (ro := ro) hla h3 ha4 hpost
    have s4 := (s2.append s3).append ih
    have hnamed : b.m.named = true := hm.1
    have hop : opening k i la (lastN p b.pre) b.m = [.line j] := by
      have : ∀ q : Node, atEnd q b.m = false := fun q => by unfold atEnd; rw [hm.2.1]; rfl
      unfold opening
      rw [hla b.m hnamed]
      cases lastN p b.pre with
      | none => rfl
      | some q => simp [this q, start]
    rw [List.flatMap_cons, flat_cons, nesteds_append k i la _ p (fun c hc => (h1 c hc).named), nesteds, hop, hla b.m hnamed, if_pos hnamed,
      nesteds_append k i la _ _ (fun c hc => (h3 c hc).named), hev]
    have s5 := pre_sim (ro := ro) hla (x := some b.m) (p := p) (first := true) (Z := ((Y j).flatMap evS ++ comEv ro j (notesOf (some b.m) b.post (flat bs).head?)) ++
      ps.flatMap (fun q => .line j :: ev ro cm k j q)) s4 h1 hpre (.inr rfl)
    rw [← hz] at s5
    simpa [List.append_assoc] using s5

/-! ### Children of bodies -/

theorem flat_members : ∀ {bs : List Blk} {p : Option Node}, Blks p bs → (flat bs).filter (fun c => !c.extra) = bs.map Blk.m
  | [], _, _ => rfl
  | b :: bs, p, h => by
    cases h with
    | cons h1 hm h3 h4 h5 h6 =>
    have e1 : b.pre.filter (fun c => !c.extra) = [] := List.filter_eq_nil_iff.2 (fun c hc => by simp [(h1 c hc).extra])
    have e2 : b.post.filter (fun c => !c.extra) = [] := List.filter_eq_nil_iff.2 (fun c hc => by simp [(h3 c hc).extra])
    rw [flat_cons, List.filter_append, e1, List.filter_cons_of_pos (by simp [hm.2.1]), List.filter_append, e2, flat_members h6]
    rfl

theorem blks_named : ∀ {bs : List Blk} {p : Option Node}, Blks p bs → ∀ c ∈ bs.map Blk.m, c.named = true
  | [], _, _, c, hc => by cases hc
  | b :: bs, p, h, c, hc => by
    cases h with
    | cons h1 hm h3 h4 h5 h6 =>
    rcases List.mem_cons.1 hc with rfl | hc
    · exact hm.1
    · exact blks_named h6 c hc

theorem flat_named {bs : List Blk} {p : Option Node} (h : Blks p bs) : ∀ c ∈ flat bs, c.named = true := by
  intro c hc
  rcases Notes.flat_cases h hc with ⟨b, hb, rfl⟩ | h
  · exact blks_named h _ (List.mem_map_of_mem hb)
  · exact h.named

/-- Tokens around members. -/
theorem split_tokens {xs M ys N : List Node} {x y : Node} (h : xs ++ M ++ ys = x :: (N ++ [y])) (hx : ∀ t ∈ xs, t.named = false)
    (hy : ∀ t ∈ ys, t.named = false) (hM : ∀ t ∈ M, t.named = true) (hN : ∀ t ∈ N, t.named = true) (h1 : x.named = false)
    (h2 : y.named = false) : M = N ∧ (M ≠ [] → xs = [x] ∧ ys = [y]) := by
  have f0 : ∀ {l : List Node}, (∀ t ∈ l, t.named = false) → l.filter (fun t => t.named) = [] :=
    fun h => List.filter_eq_nil_iff.2 (fun t ht => by simp [h t ht])
  have f1 : ∀ {l : List Node}, (∀ t ∈ l, t.named = true) → l.filter (fun t => t.named) = l := fun h => List.filter_eq_self.2 h
  have hMN : M = N := by
    have := congrArg (List.filter (fun t => t.named)) h
    rw [List.filter_append, List.filter_append, f0 hx, f0 hy, f1 hM, List.filter_cons_of_neg (by simp [h1]), List.filter_append, f1 hN,
      List.filter_cons_of_neg (by simp [h2])] at this
    simpa using this
  subst hMN
  refine ⟨rfl, fun hne => ?_⟩
  cases M with
  | nil => exact absurd rfl hne
  | cons a M =>
  have ha := hM a List.mem_cons_self
  match xs, h, hx with
  | [], h, _ =>
    simp only [List.nil_append, List.cons_append, List.cons.injEq] at h
    rw [h.1, h1] at ha
    cases ha
  | [b], h, _ =>
    simp only [List.cons_append, List.nil_append, List.cons.injEq, true_and] at h
    exact ⟨by rw [h.1], List.append_cancel_left h.2⟩
  | b :: c :: t, h, hx =>
    simp only [List.cons_append, List.cons.injEq] at h
    have := hx c (by simp)
    rw [h.2.1, ha] at this
    cases this

/-- The children of a body in braces. -/
theorem body_kids (L : LCtx root ro cm cfg rec k l m) {kd : String} {sgs : List (Sg Loc)} (hv : At l kd sgs) (hb : bodyKinds.contains kd = true)
    {x y : Loc} {xs : List Loc} (hl : locs sgs = x :: (xs ++ [y])) (hx : x.node.named = false) (hy : y.node.named = false)
    (hn : ∀ z ∈ xs, z.node.named = true) : ∃ bs, l.node.children = x.node :: (flat bs ++ [y.node]) ∧ bs.map Blk.m = xs.map Loc.node ∧
      Blks none bs ∧ apartRows (flat bs) = true ∧ Owned cm none bs := by
  obtain ⟨ts, bs, us, hc, ht, hu, hB, hA, hO, _⟩ := L.fit.here.1.body (by rw [show l.node.kind = kd from hv.kind]; exact hb)
  have hf : ∀ {us : List Node}, (∀ t ∈ us, Notes.Tok t) → us.filter (fun c => !c.extra) = us :=
    fun h => List.filter_eq_self.2 (fun t ht => by simp [(h t ht).2.1])
  have e : ts ++ bs.map Blk.m ++ us = x.node :: (xs.map Loc.node ++ [y.node]) := by
    have h1 := view_map l
    rw [hv.view.1, hl, hc, List.filter_append, List.filter_append, flat_members hB, hf ht, hf hu] at h1
    simpa using h1.symm
  obtain ⟨e1, e2⟩ := split_tokens e (fun t h => (ht t h).1) (fun t h => (hu t h).1) (blks_named hB)
    (fun t h => by obtain ⟨z, hz, rfl⟩ := List.mem_map.1 h; exact hn z hz) hx hy
  refine ⟨bs, ?_, e1, hB, hA, hO⟩
  by_cases hne : bs.map Blk.m = []
  · have hbs : bs = [] := List.map_eq_nil_iff.1 hne
    subst hbs
    rw [← e1] at e
    rw [hc, Notes.flat_nil]
    exact e
  · obtain ⟨e3, e4⟩ := e2 hne
    rw [hc, e3, e4]
    simp

/-- The children of a file. -/
theorem file_kids (L : LCtx root ro cm cfg rec k l m) {kd : String} {sgs : List (Sg Loc)} (hv : At l kd sgs) (hb : bodyKinds.contains kd = true)
    (hn : ∀ z ∈ locs sgs, z.node.named = true) : ∃ bs, l.node.children = flat bs ∧ bs.map Blk.m = (locs sgs).map Loc.node ∧
      Blks none bs ∧ apartRows (flat bs) = true ∧ Owned cm none bs := by
  obtain ⟨ts, bs, us, hc, ht, hu, hB, hA, hO, _⟩ := L.fit.here.1.body (by rw [show l.node.kind = kd from hv.kind]; exact hb)
  have hf : ∀ {us : List Node}, (∀ t ∈ us, Notes.Tok t) → us.filter (fun c => !c.extra) = us :=
    fun h => List.filter_eq_self.2 (fun t ht => by simp [(h t ht).2.1])
  have e : ts ++ bs.map Blk.m ++ us = (locs sgs).map Loc.node := by
    have h1 := view_map l
    rw [hv.view.1, hc, List.filter_append, List.filter_append, flat_members hB, hf ht, hf hu] at h1
    exact h1.symm
  have hno : ∀ t ∈ ts ++ bs.map Blk.m ++ us, t.named = true := fun t h => by
    rw [e] at h
    obtain ⟨z, hz, rfl⟩ := List.mem_map.1 h
    exact hn z hz
  have e1 : ts = [] := List.eq_nil_iff_forall_not_mem.2 (fun t h => by
    have := hno t (by simp [h])
    rw [(ht t h).1] at this
    cases this)
  have e2 : us = [] := List.eq_nil_iff_forall_not_mem.2 (fun t h => by
    have := hno t (by simp [h])
    rw [(hu t h).1] at this
    cases this)
  subst e1 e2
  exact ⟨bs, by simpa using hc, by simpa using e, hB, hA, hO⟩

end
end Afmt.Levels
