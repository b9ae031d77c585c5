import Verif.Levels.Body

/-!
# Levels of bodies, `if` statements, and nodes that contain several bodies
-/

namespace Afmt.Levels
open Gram hiding inner full
open Prog New
open Afmt.Lines (All All2 Silent)
open Afmt.Notes (Note Mem Blk Blks Owned noteOf notesOf lastN flat Role Roles bucketOf flat_cons)

section
variable {root : Node} {ro : Comment → Role} {cm : CMap} {cfg : Cfg} {rec : Rec} {k : Nat} {l : Loc} {m : Nat}

/-! ### Parts of programs -/

theorem sim_kid {x : Loc} {p : Prog} (hb : bucketOf cm x.id = .empty ∧ x.node.extra = false) (h : Lv ro cm k x p) (ht : tl cm x = []) (i : Nat) :
    Sim (ev ro cm k i p) (nested k i x.node) := by
  have := h.bare hb.1 i
  rwa [ht, List.append_nil] at this

/-- A token that is printed as a text of the constructor. -/
theorem sim_tok (L : LCtx root ro cm cfg rec k l m) {x : Loc} {s : String} {w : Str} (h : SatL l (tok s) x)
    (hw : foldL (letters false w) = foldL (letters false s.toList)) (hf : layKinds.contains s = false) (i j : Nat) :
    Sim (ev ro cm k i (.txt w)) (nested k j x.node) := by
  have h1 : flowing x.node = true := by
    refine sat_flowing h ?_ (L.fitKid h.2)
    simp only [flatAtom, tok, List.all_cons, List.all_nil, hf]
    rfl
  have hx : x.node.extra = false := by
    have := (List.mem_filter.1 h.2).2
    simpa [Loc.extra] using this
  rw [nested_flat ((L.fitKid h.2).imp (fun _ h => h.1)) hx h1]
  obtain ⟨c1, _⟩ := sx_cnt L.roles (sx_tok (cm := cm) h hw) k i
  refine sim_flat ?_ ?_
  · rw [c1, lets_cont]
  · rw [ev_txt]; exact cntN_evT _

theorem sim_flow {ps : List Prog} {xs : List Loc} (h : All2 (fun p x => Lv ro cm k x p) ps xs) (ht : ∀ x ∈ xs, tl cm x = [])
    (hb : ∀ x ∈ xs, bucketOf cm x.id = .empty ∧ x.node.extra = false)
    (i : Nat) : Sim (evs ro cm k i ps) (kids k i .flow (xs.map Loc.node)) := by
  induction h with
  | nil => rw [evs_nil]; exact sim_nil
  | cons h1 _ ih =>
    rw [evs_cons, List.map_cons, kids_cons]
    exact (sim_kid (hb _ (List.mem_cons_self ..)) h1 (ht _ (List.mem_cons_self ..)) i).append
      (ih (fun x hx => ht x (List.mem_cons_of_mem _ hx)) (fun x hx => hb x (List.mem_cons_of_mem _ hx)))

theorem kids_nil (k i : Nat) (la : Lay) : kids k i la [] = [] := rfl

/-- Members on lines of their own. -/
theorem sim_lines {ps : List Prog} {xs : List Loc} (h : All2 (fun p x => Lv ro cm k x p ∧ Fresh ro cm k x p) ps xs)
    (hb : ∀ x ∈ xs, bucketOf cm x.id = .empty ∧ x.node.extra = false)
    (ht : ∀ x ∈ xs, tl cm x = []) (hf : ∀ x ∈ xs, All (Fit cm) x.node) (j : Nat) :
    Sim (ps.flatMap (fun p => .line j :: ev ro cm k j p)) (xs.flatMap (fun x => .line j :: nested k j x.node)) := by
  induction h with
  | nil => exact sim_nil
  | cons h1 _ ih =>
    rw [List.flatMap_cons, List.flatMap_cons]
    have b := hb _ (List.mem_cons_self ..)
    have f := hf _ (List.mem_cons_self ..)
    exact (sim_line (sim_kid b h1.1 (ht _ (List.mem_cons_self ..)) j) (h1.2.bare b.1 j) (nested_ne k f j b.2) (nested_shift k f j b.2) j).append
      (ih (fun x hx => hb x (List.mem_cons_of_mem _ hx)) (fun x hx => ht x (List.mem_cons_of_mem _ hx)) (fun x hx => hf x (List.mem_cons_of_mem _ hx)))

theorem kids_lines {la : Lay} {i j : Nat} {xs : List Loc} (h : ∀ x ∈ xs, place k i la x.node = (some j, j)) :
    kids k i la (xs.map Loc.node) = xs.flatMap (fun x => .line j :: nested k j x.node) := by
  induction xs with
  | nil => rfl
  | cons x xs ih =>
    rw [List.map_cons, kids_cons, h x (List.mem_cons_self ..), ih (fun y hy => h y (List.mem_cons_of_mem _ hy)), List.flatMap_cons]
    rfl

theorem ev_bodyParts (k j : Nat) : ∀ (ms : List (Bool × Prog)), ms ≠ [] →
    .line j :: evs ro cm k j (bodyParts ms) = (ms.map (·.2)).flatMap (fun p => .line j :: ev ro cm k j p)
  | [(b, p)], _ => by simp [bodyParts, evs_cons, evs_nil]
  | (b, p) :: q :: ms, _ => by
    rw [bodyParts, evs_cons, evs_cons, ev_sep, List.singleton_append, ev_bodyParts k j (q :: ms) (by simp)]
    · simp
    · intro h; cases h

theorem ev_parts (k j : Nat) {sep : Ins} (h : evs ro cm k j sep.progs = [.line j]) : ∀ (ps : List Prog), ps ≠ [] →
    .line j :: evs ro cm k j (Prog.intersperseParts sep ps) = ps.flatMap (fun p => .line j :: ev ro cm k j p)
  | [p], _ => by simp [Prog.intersperseParts, evs_cons, evs_nil]
  | p :: q :: ps, _ => by
    rw [Prog.intersperseParts, evs_cons, evs_append, h, List.singleton_append, ev_parts k j h (q :: ps) (by simp)]
    · simp
    · intro h; cases h

theorem mems_progs {ms : List (Bool × Prog)} {xs : List Loc} (h : Mems ro cm k ms xs) :
    All2 (fun p x => Lv ro cm k x p ∧ Fresh ro cm k x p) (ms.map (·.2)) xs := by
  induction h with
  | nil => exact .nil
  | cons h _ ih => exact .cons h ih

theorem ev_t (k i : Nat) (s : String) : ev ro cm k i (t s) = evT s.toList := ev_txt k i _

theorem ev_open (k i : Nat) : ev ro cm k i (t "{") = [.chr] := by rw [ev_t]; rfl
theorem ev_close (k i : Nat) : ev ro cm k i (t "}") = [.chr] := by rw [ev_t]; rfl

theorem ev_surroundBody (k i : Nat) (ms : List (Bool × Prog)) : ev ro cm k i (surroundBody ms) =
    .chr :: ((ms.map (·.2)).flatMap (fun p => .line (i + k) :: ev ro cm k (i + k) p) ++ [.line i, .chr]) := by
  cases ms with
  | nil => simp [surroundBody, ev_concat, evs_cons, evs_nil, ev_open, ev_close, ev_nl]
  | cons m ms =>
    rw [← ev_bodyParts k (i + k) (m :: ms) (by simp)]
    simp [surroundBody, intersperseBody, ev_concat, evs_cons, evs_nil, ev_open, ev_close, ev_nl, ev_indent]

theorem all2_cons {α β : Type} {P : α → β → Prop} {as : List α} {b : β} {bs : List β} (h : All2 P as (b :: bs)) :
    ∃ a as', as = a :: as' := by
  cases h with
  | cons _ _ => exact ⟨_, _, rfl⟩

/-- The children of a node in braces, with or without comments between them. -/
theorem braces_sim (L : LCtx root ro cm cfg rec k l m) {kd : String} {sgs : List (Sg Loc)} (hv : At l kd sgs) {x y : Loc}
    {xs : List Loc} (hl : locs sgs = x :: (xs ++ [y])) (hx : SatL l (tok "{") x) (hy : SatL l (tok "}") y)
    (hlay : lay kd l.node.children = .braces) (hn : ∀ z ∈ xs, z.node.named = true) (hc : calmSgs sgs = true)
    {ps : List Prog} (hps : All2 (fun p x => Lv ro cm k x p ∧ Fresh ro cm k x p) ps xs) (i : Nat) :
    ∃ M, nested k i l.node = nested k i x.node ++ M ++ (.line i :: nested k i y.node) ∧
      Sim (ps.flatMap (fun p => .line (i + k) :: ev ro cm k (i + k) p)) M := by
  have hvw : ∀ z ∈ xs, z ∈ view l := fun z hz => by rw [hv.view.1, hl]; simp [hz]
  have hxk : x.node.kind = "{" := hx.kind_eq rfl
  have hyk : y.node.kind = "}" := hy.kind_eq rfl
  have nx : x.node.named = false := hx.fits.1
  have ny : y.node.named = false := hy.fits.1
  have px : place k i .braces x.node = (none, i) := by simp [place, nx, hxk]
  have py : place k i .braces y.node = (some i, i) := by simp [place, ny, hyk]
  cases hb : bodyKinds.contains kd with
  | false =>
    refine ⟨_, ?_, sim_lines hps (fun z hz => L.kidBucket hv hb (hvw z hz)) (fun z hz => tl_calm cm hv hc z (hvw z hz))
      (fun z hz => L.fitKid (hvw z hz)) (i + k)⟩
    rw [nested_view L hv hb, hlay, hl, List.map_cons, List.map_append, kids_cons, kids_append, kids_lines (j := i + k), List.map_cons, List.map_nil,
      kids_cons, kids_nil, px, py]
    · simp [start]
    · intro z hz
      simp [place, hn z hz]
  | true =>
    obtain ⟨bs, e1, e2, hB, hA, hO⟩ := body_kids L hv hb hl nx ny hn
    have hla : ∀ c : Node, c.named = true → place k i .braces c = (some (i + k), i + k) := fun c hc => by simp [place, hc]
    refine ⟨_, ?_, blocks_sim (la := .braces) (i := i) (p := none) L.roles hla hB hA hO e2 hps (fun z hz => tl_calm cm hv hc z (hvw z hz))
      (fun z hz => L.fitKid (hvw z hz))⟩
    have ex : x.node.extra = false := by
      have := (List.mem_filter.1 hx.2).2
      simpa [Loc.extra] using this
    have ey : y.node.extra = false := by
      have := (List.mem_filter.1 hy.2).2
      simpa [Loc.extra] using this
    have o2 : ∀ q, opening k i .braces q y.node = [.line i] := fun q => by
      rw [opening_plain ey, py]; rfl
    have o1 : opening k i .braces none x.node = [] := by
      rw [opening_plain ex, px]; rfl
    rw [nested_eq L.self.extra, if_neg (by rw [e1]; simp), show l.node.kind = kd from hv.kind, hlay]
    conv => lhs; rw [e1]
    rw [nesteds, o1, px, nx, if_neg (by simp), nesteds_append k i .braces _ _ (flat_named hB), nesteds, o2, py, nesteds]
    simp

/-- Members in braces. -/
theorem brace_lv (L : LCtx root ro cm cfg rec k l m) {kd : String} {sgs : List (Sg Loc)} (hv : At l kd sgs) {x y : Loc}
    {xs : List Loc} (hl : locs sgs = x :: (xs ++ [y])) (hx : SatL l (tok "{") x) (hy : SatL l (tok "}") y)
    (hlay : lay kd l.node.children = .braces) (hn : ∀ z ∈ xs, z.node.named = true) (hc : calmSgs sgs = true)
    {ps : List Prog} (hps : All2 (fun p x => Lv ro cm k x p ∧ Fresh ro cm k x p) ps xs) {p : Prog} {Y : Nat → List Mk} (hF : Frame ro cm k l p Y)
    (he : ∀ i, ∃ E', (Y i).flatMap evS = .chr :: (ps.flatMap (fun p => .line (i + k) :: ev ro cm k (i + k) p) ++ [.line i, .chr]) ++ E' ∧
      cntC E' = (lets (codeC (pcont cm l))).length ∧ cntN E' = 0) : Lv ro cm k l p := by
  refine ⟨Y, hF, fun i => ?_⟩
  obtain ⟨E', h1, h2, h3⟩ := he i
  obtain ⟨M, e, hM⟩ := braces_sim L hv hl hx hy hlay hn hc hps i
  have sx : Sim [.chr] (nested k i x.node) := by
    have := sim_tok (w := "{".toList) L hx rfl rfl i i
    rwa [show ev ro cm k i (.txt "{".toList) = [.chr] from ev_open k i] at this
  have sy : Sim [.chr] (nested k i y.node) := by
    have := sim_tok (w := "}".toList) L hy rfl rfl i i
    rwa [show ev ro cm k i (.txt "}".toList) = [.chr] from ev_close k i] at this
  have ey : y.node.extra = false := by
    have := (List.mem_filter.1 hy.2).2
    simpa [Loc.extra] using this
  have s := sim_line sy (.inr (.inl ⟨[], rfl⟩)) (nested_ne k (L.fitKid hy.2) i ey) (nested_shift k (L.fitKid hy.2) i ey) i
  rw [h1, e]
  refine Sim.append (b' := tl cm l) ?_ (sim_flat h2 h3)
  have := (sx.append hM).append s
  simpa using this

theorem sat_all_named {a : Atom} {xs : List Loc} (h : ∀ x ∈ xs, SatL l a x) (ha : a.named = true) : ∀ x ∈ xs, x.node.named = true :=
  fun x hx => by rw [(h x hx).fits.1, ha]

theorem frame_bracketBody (l : Loc) (ms : List (Bool × Prog)) :
    Frame ro cm k l (bracketBody l ms) (fun i => marked ro cm k i (surroundBody ms)) := by
  intro i
  simp [bracketBody, marked, markeds]

theorem body_lv (L : LCtx root ro cm cfg rec k l m) {kd : String} {a : Atom} {x y : Loc} {xs : List Loc}
    (hv : At l kd [.one (tok "{") x, .many a xs, .one (tok "}") y]) (hx : SatL l (tok "{") x) (hy : SatL l (tok "}") y)
    (hxs : ∀ z ∈ xs, SatL l a z) (ha : a.named = true) (hlay : lay kd l.node.children = .braces)
    (hc : calmSgs [.one (tok "{") x, .many a xs, .one (tok "}") y] = true) (hq : quietKinds.contains kd = true)
    {ms : List (Bool × Prog)} (hms : Mems ro cm k ms xs) : Lv ro cm k l (bracketBody l ms) := by
  refine brace_lv L hv (xs := xs) rfl hx hy hlay (sat_all_named hxs ha) hc (mems_progs hms) (frame_bracketBody l ms) (fun i => ⟨[], ?_, ?_, rfl⟩)
  · show ev ro cm k i (surroundBody ms) = _
    rw [ev_surroundBody, List.append_nil]
  · rw [L.ctx.reach.quiet cm (by rw [hv.kind]; exact hq)]
    rfl

theorem classBody_lv (L : LCtx root ro cm cfg rec k l m) (h : conf l.node (.cls .classBody) = true) :
    W Any (New.classBody cfg rec l) (Lv ro cm k l) := by
  obtain ⟨x1, h1, x2, h2, x3, h3, hv⟩ := cls_at h rfl rfl rfl
  nrm
  unfold New.classBody
  lst
  apply W_mapV hv
  focus (exact rfl)
  refine W_membersL L hv.sane h2 rfl rfl rfl rfl (fun ps hps => W_ok ?_)
  exact body_lv L hv h1 h3 h2 rfl rfl rfl rfl hps

theorem interfaceBody_lv (L : LCtx root ro cm cfg rec k l m) (h : conf l.node (.cls .interfaceBody) = true) :
    W Any (New.interfaceBody cfg rec l) (Lv ro cm k l) := by
  obtain ⟨x1, h1, x2, h2, x3, h3, hv⟩ := cls_at h rfl rfl rfl
  nrm
  unfold New.interfaceBody
  lst
  apply W_mapV hv
  focus (exact rfl)
  refine W_membersL L hv.sane h2 rfl rfl rfl rfl (fun ps hps => W_ok ?_)
  exact body_lv L hv h1 h3 h2 rfl rfl rfl rfl hps

theorem block_lv (L : LCtx root ro cm cfg rec k l m) (h : conf l.node (.cls .block) = true) :
    W Any (New.block cfg rec l) (Lv ro cm k l) := by
  obtain ⟨x1, h1, x2, h2, x3, h3, hv⟩ := cls_at h rfl rfl rfl
  nrm
  unfold New.block
  lst
  apply W_mapV hv
  focus (exact rfl)
  refine W_membersL L hv.sane h2 rfl rfl rfl rfl (fun ps hps => W_ok ?_)
  exact body_lv L hv h1 h3 h2 rfl rfl rfl rfl hps

theorem switchBlock_lv (L : LCtx root ro cm cfg rec k l m) (h : conf l.node (.cls .switchBlock) = true) :
    W Any (New.switchBlock rec l) (Lv ro cm k l) := by
  obtain ⟨x1, h1, x2, h2, x3, h3, x4, h4, hv⟩ := cls_at h rfl rfl rfl
  nrm
  unfold New.switchBlock
  lst
  apply W_csByK hv
  · exact rfl
  · exact rfl
  · exact List.cons_ne_nil _ _
  have h23 : ∀ x ∈ x2 :: x3, SatL l (k0 .switchRule) x := List.forall_mem_cons.mpr ⟨h2, h3⟩
  refine W_mapS L hv.sane h23 rfl rfl rfl rfl (fun ps hps => W_ok ?_)
  refine brace_lv L hv (xs := x2 :: x3) rfl h1 h4 rfl (sat_all_named h23 rfl) rfl hps (frame_bwcp L.self _)
      (fun i => ⟨evs ro cm k i (punctOpt (Punc.from l)), ?_, punct_cnt L i⟩)
  rw [List.flatMap_append]
  congr 1
  show evs ro cm k i [_] = _
  rw [evs_cons, evs_nil, List.append_nil]
  obtain ⟨p, ps, rfl⟩ := all2_cons hps
  · rw [← ev_parts k (i + k) (sep := .sAfter "" .nl) (by simp [Ins.progs, Ins.sAfter, evs_cons, evs_nil, ev_nl, opt, optT, ev_txt, evT]) (p :: ps) (by simp)]
    simp [Prog.surround, Ins.sAfter, Ins.before, opt, optT, Prog.intersperse, ev_concat, evs_cons, evs_nil, ev_nl, ev_indent, ev_txt]
    try rfl

theorem accessor_flowing (hf : All (Fit cm) l.node) (h : conf l.node (.cls .accessorDeclaration) = true)
    (hb : l.node.children.any (fun c => c.field == some "body") = false) : flowing l.node = true := by
  rcases cls_at h rfl rfl rfl with ⟨x1, h1, x2, h2, x3, h3, hv⟩ | ⟨x1, h1, x2, h2, x3, h3, hv⟩
  · nrm
    exfalso
    have hx : x3.node ∈ l.node.children := mem_children_node (mem_view.1 h3.2).1
    have := List.any_eq_false.1 hb _ hx
    have hfl := h3.fits.2.1
    simp [kf] at hfl
    exact this (by rw [hfl]; rfl)
  · nrm
    exact view_flowing hf hv rfl rfl

theorem accessorList_lv (L : LCtx root ro cm cfg rec k l m) (h : conf l.node (.cls .accessorList) = true) :
    W Any (New.accessorList rec l) (Lv ro cm k l) := by
  refine W_with (accessorList_sx L.ctx h) ?_
  obtain ⟨x1, h1, x2, h2, x3, h3, x4, h4, hv⟩ := cls_at h rfl rfl rfl
  nrm
  unfold New.accessorList
  lst
  apply W_csByK hv
  · exact rfl
  · exact rfl
  · exact List.cons_ne_nil _ _
  have h23 : ∀ x ∈ x2 :: x3, SatL l (k0 .accessorDeclaration) x := List.forall_mem_cons.mpr ⟨h2, h3⟩
  have hbody : ∀ x : Loc, (x.tryCByN "body").isSome = x.node.children.any (fun c => c.field == some "body") := by
    intro x
    rw [Loc.tryCByN, List.isSome_find?, ← children_map x, List.any_map]
    rfl
  have hkids : l.node.children = x1.node :: ((x2 :: x3).map Loc.node ++ [x4.node]) := by
    rw [kids_view L.fit.here.1 (by rw [show l.node.kind = _ from hv.kind]; rfl), hv.view.1]
    simp [locs, Sg.locs]
  have hempty : ∀ {x : Loc} {s : String}, SatL l (tok s) x → x.node.children = [] := by
    intro x s hx
    rcases hx.fits.2.2.2 with h | h
    · cases h
    · simp only [tokenText, Bool.and_eq_true, List.isEmpty_iff] at h
      exact h.1
  have hany : (x2 :: x3).any (fun a => (a.tryCByN "body").isSome) =
      l.node.children.any (fun a => a.children.any (fun c => c.field == some "body")) := by
    rw [hkids]
    generalize x2 :: x3 = xs
    rw [List.any_cons, List.any_append, hempty h1, List.any_nil, Bool.false_or, List.any_cons, hempty h4, List.any_nil,
      List.any_nil, Bool.or_false, Bool.or_false, List.any_map]
    congr 1
    funext a
    exact hbody a
  refine W_mapS L hv.sane h23 rfl rfl rfl rfl (fun ps hps => W_ok ?_)
  rw [hany]
  cases hb : l.node.children.any (fun a => a.children.any (fun c => c.field == some "body")) with
  | false =>
    intro hs
    refine flat_lv L hs ?_ ⟨_, frame_bwcp L.self _⟩
    have hlay : lay "accessor_list" l.node.children = .flow := by
      simp only [lay, hb]
      rfl
    rw [flowing_eq, show l.node.kind = "accessor_list" from hv.kind, hlay]
    refine flowings_of (fun c hc => ?_)
    have hcb := List.any_eq_false.1 hb c hc
    rw [hkids] at hc
    rcases List.mem_cons.1 hc with rfl | hc
    · exact sat_flowing h1 rfl (L.fitKid h1.2)
    · rcases List.mem_append.1 hc with hc | hc
      · obtain ⟨x, hx, rfl⟩ := List.mem_map.1 hc
        exact accessor_flowing (L.fitKid (h23 x hx).2) ((h23 x hx).1.2 _ rfl) (by simpa using hcb)
      · rw [List.mem_singleton] at hc
        subst hc
        exact sat_flowing h4 rfl (L.fitKid h4.2)
  | true =>
    intro _
    have hlay : lay "accessor_list" l.node.children = .braces := by
      simp only [lay, hb]
      rfl
    refine brace_lv L hv (xs := x2 :: x3) rfl h1 h4 hlay (sat_all_named h23 rfl) rfl hps (frame_bwcp L.self _)
      (fun i => ⟨evs ro cm k i (punctOpt (Punc.from l)), ?_, punct_cnt L i⟩)
    rw [List.flatMap_append]
    congr 1
    show evs ro cm k i [_] = _
    rw [evs_cons, evs_nil, List.append_nil]
    obtain ⟨p, ps, rfl⟩ := all2_cons hps
    · rw [← ev_parts k (i + k) (sep := .after .nl) (by simp [Ins.progs, Ins.after, evs_cons, evs_nil, ev_nl, opt, optT]) (p :: ps) (by simp)]
      simp [Prog.intersperse, ev_concat, evs_cons, evs_nil, ev_nl, ev_indent, ev_open, ev_close]

theorem root_lv (L : LCtx root ro cm cfg rec k l m) (h : conf l.node (.cls .root) = true) (hne : l.node.children ≠ []) :
    W Any (New.root cfg rec l) (fun p => Sim (.line 0 :: ev ro cm k 0 p) (nested k 0 l.node)) := by
  obtain ⟨x1, h1, hv⟩ := cls_at h rfl rfl rfl
  nrm
  unfold New.root
  lst
  apply W_mapV hv
  focus (exact rfl)
  refine W_membersL L hv.sane h1 rfl rfl rfl rfl (fun ps hps => W_ok ?_)
  have hvw : ∀ z ∈ x1, z ∈ view l := fun z hz => by rw [hv.view.1]; simpa [locs, Sg.locs] using hz
  have hx1 : locs [.many (k0 .rootMember) x1] = x1 := by simp [locs, Sg.locs]
  obtain ⟨bs, e1, e2, hB, hA, hO⟩ := file_kids L hv rfl (by rw [hx1]; exact sat_all_named h1 rfl)
  rw [hx1] at e2
  have hla : ∀ c : Node, c.named = true → place k 0 .file c = (some 0, 0) := fun c hc => by simp [place, hc]
  have hs := blocks_sim (la := .file) (i := 0) (p := none) L.roles hla hB hA hO e2 (mems_progs hps) (fun z hz => tl_calm cm hv rfl z (hvw z hz))
    (fun z hz => L.fitKid (hvw z hz))
  rw [nested_eq L.self.extra, if_neg (by simpa using hne), show l.node.kind = "parser_output" from hv.kind,
    show lay "parser_output" l.node.children = .file from rfl]
  conv => arg 2; rw [e1]
  cases x1 with
  | nil =>
    exfalso
    have : bs = [] := by simpa using e2
    subst this
    exact hne e1
  | cons x xs =>
    obtain ⟨q, ms, rfl⟩ := all2_cons hps
    rw [← ev_bodyParts k 0 (q :: ms) (by simp)] at hs
    have := hs.append (sim_flat (e := [.line 0]) (n := 0) rfl rfl)
    rw [show List.replicate 0 Ev.chr = [] from rfl, List.append_nil] at this
    simpa [ev_ifDangling, ev_concat, evs_cons, evs_nil, ev_nl, intersperseBody] using this

theorem tryStatement_lv (L : LCtx root ro cm cfg rec k l m) (h : conf l.node (.cls .tryStatement) = true) :
    W Any (New.tryStatement rec l) (Lv ro cm k l) := by
  rcases cls_at h rfl rfl rfl with ⟨x1, h1, x2, h2, x3, h3, x4, h4, hv⟩ | ⟨x1, h1, x2, h2, x3, h3, x4, h4, hv⟩
  · nrm
    have ht := tl_calm cm hv rfl
    have h34 : ∀ x ∈ x3 :: x4, SatL l (k0 .catchClause) x := List.forall_mem_cons.mpr ⟨h3, h4⟩
    unfold New.tryStatement
    lst
    rw [get_tryCByK hv.plain hv.view rfl (rfl : findSg (kT "finally_clause") _ = some none)]
    refine W_then (P := fun ps => ∃ qs, ps = [.concat qs] ∧ All2 (fun p x => Lv ro cm k x p) qs (x3 :: x4)) ?_ ?_
    · dsimp only
      apply W_csByK hv
      · exact rfl
      · exact rfl
      · exact List.cons_ne_nil _ _
      refine W_mapL L hv.sane h34 rfl rfl rfl (fun ps hps => W_ok ⟨ps, rfl, hps⟩)
    · rintro ps ⟨qs, rfl, hqs⟩
      repeat' lst
      rename_i b hb
      refine lv_bwcp L.self (fun i => ?_)
      rw [nested_view L hv rfl, lay_flow rfl]
      refine Sim.append ?_ (sim_flat (punct_cnt L i).1 (punct_cnt L i).2)
      have e : (locs [.one (tok "try") x1, .one (kf "body" .block) x2, .one (k0 .catchClause) x3, .many (k0 .catchClause) x4]).map Loc.node
          = x1.node :: x2.node :: (x3 :: x4).map Loc.node := by simp [locs, Sg.locs]
      have e' : evs ro cm k i [tR "try", b, .concat [.concat qs]] = ev ro cm k i (tR "try") ++ (ev ro cm k i b ++ evs ro cm k i qs) := by
        simp [evs_cons, evs_nil, ev_concat]
      rw [e, e', kids_cons, kids_cons]
      exact (sim_tok L h1 rfl rfl i i).append ((sim_kid (L.kidBucket hv rfl h2.2) hb (ht _ h2.2) i).append
        (sim_flow hqs (fun x hx => ht x (h34 x hx).2) (fun x hx => L.kidBucket hv rfl (h34 x hx).2) i))
  · nrm
    have ht := tl_calm cm hv rfl
    unfold New.tryStatement
    lst
    rw [get_tryCByK hv.plain hv.view rfl (rfl : findSg (kT "finally_clause") _ = some (some x4))]
    refine W_then (P := fun ps => ∃ qs q, ps = [.concat qs, q] ∧ All2 (fun p x => Lv ro cm k x p) qs x3 ∧ Lv ro cm k x4 q) ?_ ?_
    · dsimp only
      apply W_mapK hv
      · exact rfl
      · exact rfl
      refine W_mapL L hv.sane h3 rfl rfl rfl (fun ps hps => ?_)
      exact W_kidL L hv.sane h4 rfl rfl rfl (fun q hq => W_ok ⟨ps, q, rfl, hps, hq⟩)
    · rintro ps ⟨qs, q, rfl, hqs, hq⟩
      repeat' lst
      rename_i b hb
      refine lv_bwcp L.self (fun i => ?_)
      rw [nested_view L hv rfl, lay_flow rfl]
      refine Sim.append ?_ (sim_flat (punct_cnt L i).1 (punct_cnt L i).2)
      have e : (locs [.one (tok "try") x1, .one (kf "body" .block) x2, .many (k0 .catchClause) x3, .one (k0 .finallyClause) x4]).map Loc.node
          = x1.node :: x2.node :: (x3.map Loc.node ++ [x4.node]) := by simp [locs, Sg.locs]
      have e' : evs ro cm k i [tR "try", b, .concat [.concat qs, q]] = ev ro cm k i (tR "try") ++ (ev ro cm k i b ++ (evs ro cm k i qs ++ ev ro cm k i q)) := by
        simp [evs_cons, evs_nil, ev_concat]
      rw [e, e', kids_cons, kids_cons, kids_append, kids_cons, kids_nil, List.append_nil]
      exact (sim_tok L h1 rfl rfl i i).append ((sim_kid (L.kidBucket hv rfl h2.2) hb (ht _ h2.2) i).append
        ((sim_flow hqs (fun x hx => ht x (h3 x hx).2) (fun x hx => L.kidBucket hv rfl (h3 x hx).2) i).append (sim_kid (L.kidBucket hv rfl h4.2) hq (ht _ h4.2) i)))

theorem doStatement_lv (L : LCtx root ro cm cfg rec k l m) (h : conf l.node (.cls .doStatement) = true) :
    W Any (New.doStatement rec l) (Lv ro cm k l) := by
  refine W_with (doStatement_sx L.ctx h) ?_
  obtain ⟨x1, h1, x2, h2, x3, h3, x4, h4, x5, h5, hv⟩ := cls_at h rfl rfl rfl
  nrm
  have ht : tl cm x2 = [] := tl_nil cm (pcont_of hv.nexts.2.1 (h3.punct rfl))
  unfold New.doStatement
  repeat' lst
  rename_i b hb c hc
  intro hs
  have hF := frame_bwcp (ro := ro) (k := k) L.self [tR "do", b, tLR "while", c]
  refine ⟨_, hF, fun i => ?_⟩
  have hfl : flowings ([x3, x4, x5].map Loc.node) = true := by
    refine flowings_of (fun y hy => ?_)
    simp only [List.map_cons, List.map_nil, List.mem_cons, List.not_mem_nil, or_false] at hy
    rcases hy with rfl | rfl | rfl
    · exact sat_flowing h3 rfl (L.fitKid h3.2)
    · exact sat_flowing h4 rfl (L.fitKid h4.2)
    · exact sat_flowing h5 rfl (L.fitKid h5.2)
  have e := nested_view L hv rfl i
  have e1 : (locs [.one (tok "do") x1, .one (kf "body" .block) x2, .one (tok "while") x3,
      .one (kf "condition" .parenthesizedExpression) x4, .one (tok ";") x5]).map Loc.node
      = x1.node :: x2.node :: [x3, x4, x5].map Loc.node := by simp [locs, Sg.locs]
  have hkf : ∀ c ∈ [x3, x4, x5].map Loc.node, All (Fit cm) c ∧ c.extra = false := by
    intro y hy
    simp only [List.map_cons, List.map_nil, List.mem_cons, List.not_mem_nil, or_false] at hy
    rcases hy with rfl | rfl | rfl
    · exact ⟨L.fitKid h3.2, (L.kidBucket hv rfl h3.2).2⟩
    · exact ⟨L.fitKid h4.2, (L.kidBucket hv rfl h4.2).2⟩
    · exact ⟨L.fitKid h5.2, (L.kidBucket hv rfl h5.2).2⟩
  rw [lay_flow rfl, e1, kids_cons, kids_cons, kids_flat hkf hfl] at e
  obtain ⟨hcn, hnn⟩ := frame_cnt L i (hF.ev i) hs
  have e2 : (markeds ro cm k i [tR "do", b, tLR "while", c] ++ markeds ro cm k i (punctOpt (Punc.from l))).flatMap evS =
      ev ro cm k i (tR "do") ++ (ev ro cm k i b ++ (evs ro cm k i [tLR "while", c] ++ evs ro cm k i (punctOpt (Punc.from l)))) := by
    rw [List.flatMap_append]
    show evs ro cm k i _ ++ evs ro cm k i _ = _
    rw [evs_cons, evs_cons]
    simp
  have s1 := sim_tok L h1 (w := "do ".toList) rfl rfl i i
  have s2 := sim_kid (L.kidBucket hv rfl h2.2) hb ht i
  rw [e2] at hcn hnn
  have hcc := (cnt_nested k l.node i).1
  rw [e] at hcc hnn
  rw [e, tl, e2]
  have e3 : ∀ n : Node, start (place k i .flow n).1 ++ nested k (place k i .flow n).2 n = nested k i n := fun _ => rfl
  rw [e3, e3] at hcc hnn ⊢
  simp only [cntC_append, cntN_append, cntC_chrs, cntN_chrs] at hcc hcn hnn
  rw [show cntC (ev ro cm k i (tR "do")) = _ from s1.cntC, s2.cntC, (punct_cnt L i).1] at hcn
  rw [show cntN (ev ro cm k i (tR "do")) = _ from s1.cntN, s2.cntN, (punct_cnt L i).2] at hnn
  rw [List.append_assoc, List.append_assoc]
  exact s1.append (s2.append ((sim_flat (by omega) (by omega)).append (sim_flat (punct_cnt L i).1 (punct_cnt L i).2)))

theorem ctorDoc_some (k i : Nat) {tr : Bool} {c : Prog} {ms : List (Bool × Prog)} (h : tr = true → ms = []) :
    evs ro cm k i (constructorBodyDoc (some (tr, c)) ms) =
      .chr :: ((c :: ms.map (·.2)).flatMap (fun p => .line (i + k) :: ev ro cm k (i + k) p) ++ [.line i, .chr]) := by
  cases ms with
  | nil =>
    simp [constructorBodyDoc, intersperseBody, ev_concat, evs_cons, evs_nil, ev_open, ev_close, ev_nl, ev_indent, nil, ev_txt, evT, ink]
  | cons m ms =>
    cases tr with
    | true => exact absurd (h rfl) (by simp)
    | false =>
      rw [List.flatMap_cons, ← ev_bodyParts k (i + k) (m :: ms) (by simp)]
      simp [constructorBodyDoc, intersperseBody, ev_concat, evs_cons, evs_nil, ev_open, ev_close, ev_nl, ev_indent, ev_sep]

theorem ctorDoc_none (k i : Nat) (ms : List (Bool × Prog)) : evs ro cm k i (constructorBodyDoc none ms) =
      .chr :: ((ms.map (·.2)).flatMap (fun p => .line (i + k) :: ev ro cm k (i + k) p) ++ [.line i, .chr]) := by
  cases ms with
  | nil => simp [constructorBodyDoc, ev_concat, evs_cons, evs_nil, ev_open, ev_close, ev_nl]
  | cons m ms =>
    rw [← ev_bodyParts k (i + k) (m :: ms) (by simp)]
    simp [constructorBodyDoc, intersperseBody, ev_concat, evs_cons, evs_nil, ev_open, ev_close, ev_nl, ev_indent]

/-- The first location that is no comment. -/
theorem view_go (p : Loc) (c : Node) (B : List Node) (hc : c.extra = false) : ∀ (A lefts : List Node), (∀ a ∈ A, a.extra = true) →
    ∃ lf R, (Loc.childrenGo p lefts (A ++ c :: B)).filter (fun x => !x.extra) = ⟨c, ⟨p.node, lf, B⟩ :: p.path⟩ :: R
  | [], lefts, _ => ⟨lefts, _, by
      rw [List.nil_append, Loc.childrenGo, List.filter_cons_of_pos (by simp [Loc.extra, hc])]⟩
  | a :: A, lefts, h => by
    obtain ⟨lf, R, e⟩ := view_go p c B hc A (a :: lefts) (fun x hx => h x (List.mem_cons_of_mem _ hx))
    refine ⟨lf, R, ?_⟩
    rw [List.cons_append, Loc.childrenGo, List.filter_cons_of_neg (by simp [Loc.extra, h a List.mem_cons_self]), e]

theorem drop_extra {A : List Node} {c : Node} {B : List Node} (hA : ∀ a ∈ A, a.extra = true) (hc : c.extra = false) :
    (A ++ c :: B).dropWhile (fun c => c.extra) = c :: B := by
  induction A with
  | nil => rw [List.nil_append, List.dropWhile_cons_of_neg (by simp [hc])]
  | cons a A ih =>
    rw [List.cons_append, List.dropWhile_cons_of_pos (by simp [hA a List.mem_cons_self])]
    exact ih (fun x hx => hA x (List.mem_cons_of_mem _ hx))

/-- No empty line is after the constructor call if another member follows. -/
theorem trail_rows (L : LCtx root ro cm cfg rec k l m) {sgs : List (Sg Loc)} (hv : At l "constructor_body" sgs) {x1 x2 d y : Loc}
    {ds : List Loc} (hl : locs sgs = x1 :: ((x2 :: d :: ds) ++ [y])) (h1 : x1.node.named = false) (h4 : y.node.named = false)
    (hn : ∀ z ∈ x2 :: d :: ds, z.node.named = true) (hk : x2.node.kind = "explicit_constructor_invocation") (c : Cls) :
    W Any (bodyMember cfg rec c x2) (fun m => m.1 = false) := by
  obtain ⟨bs, e1, e2, hB, hA, hO⟩ := body_kids L hv rfl hl h1 h4 hn
  match bs, e1, e2, hB, hA, hO with
  | [], _, e2, _, _, _ => cases e2
  | [b], _, e2, _, _, _ => simp at e2
  | b :: b' :: bs, e1, e2, hB, hA, hO =>
  have hnm := flat_named hB
  cases hB with
  | cons g1 gm g3 g4 g5 g6 =>
  have hm : b.m = x2.node := by
    simp only [List.map_cons, List.cons.injEq] at e2
    exact e2.1
  -- the location
  have hx1 : x1.node.extra = false := by
    have : x1 ∈ view l := by rw [hv.view.1, hl]; simp
    have := (List.mem_filter.1 this).2
    simpa [Loc.extra] using this
  obtain ⟨lf, R, hgo⟩ := view_go l b.m (b.post ++ flat (b' :: bs) ++ [y.node]) gm.2.1 b.pre [x1.node] (fun a ha => (g1 a ha).extra)
  have hx2 : x2 = ⟨b.m, ⟨l.node, lf, b.post ++ flat (b' :: bs) ++ [y.node]⟩ :: l.path⟩ := by
    have hvw := hv.view.1
    rw [hl, view, Loc.children, e1, Loc.childrenGo, List.filter_cons_of_pos (by simp [Loc.extra, hx1]), flat_cons] at hvw
    rw [show (b.pre ++ b.m :: (b.post ++ flat (b' :: bs))) ++ [y.node] = b.pre ++ b.m :: (b.post ++ flat (b' :: bs) ++ [y.node]) from by simp,
      hgo, List.cons.injEq, List.cons_append, List.cons.injEq] at hvw
    exact hvw.2.1.symm
  -- the rows
  have hrows : (b.post ++ flat (b' :: bs)).head?.all (fun d => closeRows b.m d (b.post ++ flat (b' :: bs)).tail) = true := by
    have hr := L.fit.here.2.1
    have hfl : l.node.children.filter (fun c => c.named) = flat (b :: b' :: bs) := by
      rw [e1, List.filter_cons_of_neg (by simp [h1]), List.filter_append, List.filter_eq_self.2 hnm, List.filter_cons_of_neg (by simp [h4])]
      simp
    rw [regular, show l.node.kind = "constructor_body" from hv.kind, hfl, flat_cons, drop_extra (fun a ha => (g1 a ha).extra) gm.2.1] at hr
    simp only [Bool.and_eq_true] at hr
    have h5 := hr.1.2
    cases hq : b.post ++ flat (b' :: bs) with
    | nil => rfl
    | cons d ds =>
      rw [hq] at h5
      simp only [hm, hk] at h5
      rw [← hm] at h5
      simpa using h5
  unfold bodyMember
  cases rec c x2 with
  | error e => trivial
  | ok p =>
    simp only
    unfold hasTrailingNewline
    cases hb : getBucket cfg.cm x2.id with
    | error e => trivial
    | ok bk =>
      rw [L.ctx.cfgcm] at hb
      have hbk : bk = bucketOf cm b.m.id := by
        rw [hm]
        exact (Notes.bucketOf_get hb).symm
      rw [hO.1] at hbk
      have hpost : bk.post = notesOf (some b.m) b.post (flat (b' :: bs)).head? := by rw [hbk]
      match hpp : b.post, g4 with
      | e :: r, g4 =>
        rw [Notes.PostOk] at g4
        simp only [List.isEmpty_cons, Bool.false_eq_true, if_false] at g4
        obtain ⟨g4, rfl⟩ := g4
        rw [hpp, List.singleton_append] at hrows
        simp only [List.head?_cons, Option.all_some, List.tail_cons, closeRows, g4, if_true] at hrows
        simp only [hpost, hpp, notesOf]
        have e5 : (noteOf (some b.m) e (([] : List Node).head?.or (flat (b' :: bs)).head?)).meta'.hasEmptyLineBelow = false := by
          unfold noteOf CommentMetadata.of
          dsimp only [List.head?_nil, Option.none_or]
          cases hf : (flat (b' :: bs)).head? with
          | none => rfl
          | some z =>
            rw [hf] at hrows
            simp only [Option.all_some, decide_eq_true_eq] at hrows
            simp only [decide_eq_false_iff_not]
            omega
        simp only [List.getLast?_singleton, e5]
        rfl
      | [], _ =>
        rw [hpp, List.nil_append] at hrows
        have hne : ∃ z r, flat (b' :: bs) = z :: r := by
          rw [flat_cons]
          cases b'.pre <;> exact ⟨_, _, rfl⟩
        obtain ⟨z, r, hz⟩ := hne
        have hnat : atEnd b.m z = false := by
          cases g6 with
          | cons f1 fm f3 f4 f5 f6 =>
          rw [hpp, lastN] at f5
          rw [flat_cons] at hz
          cases hpre : b'.pre with
          | nil =>
            rw [hpre, List.nil_append, List.cons.injEq] at hz
            rw [← hz.1]
            exact atEnd_plain fm.2.1
          | cons w t =>
            rw [hpre, List.cons_append, List.cons.injEq] at hz
            rw [← hz.1]
            exact f5 b.m w t rfl hpre
        rw [hz] at hrows
        simp only [List.head?_cons, Option.all_some, closeRows, hnat, Bool.false_eq_true, if_false, Bool.and_eq_true, decide_eq_true_eq] at hrows
        simp only [hpost, hpp, notesOf]
        have hzn : z.named = true := hnm z (by rw [flat_cons, hpp, hz]; simp)
        have hnx : x2.nextNamedSibling = some ⟨z, ⟨l.node, b.m :: lf, r ++ [y.node]⟩ :: l.path⟩ := by
          rw [hx2, Loc.nextNamedSibling, Loc.rightSiblings]
          dsimp only
          rw [hpp, List.nil_append, hz, List.cons_append, Loc.childrenGo, List.find?_cons_of_pos (by exact hzn)]
        simp only [List.getLast?_nil, hnx]
        have e3 : x2.endRow = b.m.endRow := by rw [hm]; rfl
        rw [if_neg (show ¬ (Loc.startRow ⟨z, ⟨l.node, b.m :: lf, r ++ [y.node]⟩ :: l.path⟩) = 0 from by
          show ¬ z.startRow = 0
          omega)]
        show decide (x2.endRow < z.startRow - 1) = false
        rw [decide_eq_false_iff_not]
        omega

theorem ev_ctor (k i : Nat) {l : Loc} (h : bucketOf cm l.id = .empty) (inv : Option (Bool × Prog)) (ms : List (Bool × Prog)) :
    ev ro cm k i (.concat [.pre l.id, .ifDangling l.id (danglingBracket l.id) (.concat (constructorBodyDoc inv ms))]) =
      evs ro cm k i (constructorBodyDoc inv ms) := by
  have : comEv ro i (bucketOf cm l.id).pre = [] := by rw [h]; rfl
  simp [ev_concat, evs_cons, evs_nil, ev_pre, ev_ifDangling, this]

theorem constructorBody_lv (L : LCtx root ro cm cfg rec k l m) (h : conf l.node (.cls .constructorBody) = true) :
    W Any (New.constructorBody cfg rec l) (Lv ro cm k l) := by
  rcases cls_at h rfl rfl rfl with ⟨x1, h1, x2, h2, x3, h3, hv⟩ | ⟨x1, h1, x2, h2, x3, h3, x4, h4, hv⟩
  · nrm
    unfold New.constructorBody
    rw [get_childrenVec hv.view (rfl : filterSg mT _ = some _)]
    refine W_then (P := fun q : Option (Bool × Prog) × List (Bool × Prog) => q.1 = none ∧ Mems ro cm k q.2 x2) ?_ ?_
    · cases x2 with
      | nil => exact W_ok ⟨rfl, .nil⟩
      | cons y ys =>
        dsimp only
        rw [if_neg ((h2 y (by simp)).kind_ne rfl)]
        refine W_membersL L hv.sane (xs := y :: ys) h2 rfl rfl rfl rfl ?_
        intro ps hps
        exact W_ok ⟨rfl, hps⟩
    · rintro ⟨_, ms⟩ ⟨rfl, hms⟩
      refine W_ok (brace_lv L hv (xs := x2) rfl h1 h3 rfl (sat_all_named h2 rfl) rfl (mems_progs hms) (frame_bare (calm_bucket L hv rfl) _)
        (fun i => ⟨[], ?_, ?_, rfl⟩))
      · show ev ro cm k i _ = _
        rw [ev_ctor k i (calm_bucket L hv rfl), ctorDoc_none, List.append_nil]
      · rw [L.ctx.reach.quiet cm (by rw [hv.kind]; rfl)]
        rfl
  · nrm
    unfold New.constructorBody
    rw [get_childrenVec hv.view (rfl : filterSg mT _ = some _)]
    refine W_then (P := fun q : Option (Bool × Prog) × List (Bool × Prog) => ∃ tr c, q.1 = some (tr, c) ∧
      (tr = true → q.2 = []) ∧ Mems ro cm k ((tr, c) :: q.2) (x2 :: x3)) ?_ ?_
    · dsimp only
      rw [if_pos (h2.kind_eq rfl)]
      have htr : W Any (bodyMember cfg rec .constructInvocation x2) (fun m => m.1 = true → x3 = []) := by
        cases x3 with
        | nil => exact W_of (fun _ _ => rfl)
        | cons d ds =>
          have h23 : ∀ z ∈ x2 :: d :: ds, z.node.named = true := List.forall_mem_cons.mpr ⟨h2.fits.1, sat_all_named h3 rfl⟩
          refine W_mono (trail_rows L hv (x1 := x1) (x2 := x2) (d := d) (ds := ds) (y := x4) (by simp [locs, Sg.locs]) h1.fits.1 h4.fits.1 h23
            (h2.kind_eq rfl) _) (fun m hm hm' => ?_)
          rw [hm] at hm'; cases hm'
      refine W_then (W_both htr (W_memberL L hv.sane h2 rfl rfl rfl rfl)) ?_
      rintro ⟨tr, c⟩ ⟨hm1, hm2⟩
      refine W_membersL L hv.sane h3 rfl rfl rfl rfl (fun ps hps => W_ok ⟨tr, c, rfl, ?_, .cons hm2 hps⟩)
      intro ht
      have := hm1 ht
      subst this
      cases hps
      rfl
    · rintro ⟨_, ms⟩ ⟨tr, c, rfl, htr, hms⟩
      have h23 : ∀ z ∈ x2 :: x3, z.node.named = true :=
        List.forall_mem_cons.mpr ⟨h2.fits.1, sat_all_named h3 rfl⟩
      refine W_ok (brace_lv L hv (xs := x2 :: x3) rfl h1 h4 rfl h23 rfl (mems_progs hms) (frame_bare (calm_bucket L hv rfl) _)
        (fun i => ⟨[], ?_, ?_, rfl⟩))
      · show ev ro cm k i _ = _
        rw [ev_ctor k i (calm_bucket L hv rfl), ctorDoc_some k i htr, List.append_nil]
        rfl
      · rw [L.ctx.reach.quiet cm (by rw [hv.kind]; rfl)]
        rfl

/-! ### `if` -/

theorem field_eq {a : Atom} {x : Loc} (h : SatL l a x) {f : Option String} (hf : a.fields = [f]) : x.node.field = f := by
  have := h.fits.2.1
  rw [hf] at this
  exact List.mem_singleton.1 this

theorem ev_blank (k i : Nat) : ev ro cm k i (t " ") = [.gap] := by rw [ev_t]; rfl

theorem if_lay {x3 : Loc} {ns : List Node} (h : ∀ c ∈ ns, c.field ≠ some "consequence") (hm : x3.node.field = some "consequence")
    {cs ds : List Node} (hcs : cs ++ ds = ns) :
    lay "if_statement" (cs ++ x3.node :: ds) = if x3.node.kind = "block" then .flow else .branch := by
  have e : (cs ++ x3.node :: ds).all (fun c => c.field != some "consequence" || c.kind != "block") = (x3.node.kind != "block") := by
    rw [List.all_append, List.all_cons, hm]
    have h1 : cs.all (fun c => c.field != some "consequence" || c.kind != "block") = true := by
      refine List.all_eq_true.2 (fun c hc => ?_)
      have := h c (by rw [← hcs]; simp [hc])
      simp [this]
    have h2 : ds.all (fun c => c.field != some "consequence" || c.kind != "block") = true := by
      refine List.all_eq_true.2 (fun c hc => ?_)
      have := h c (by rw [← hcs]; simp [hc])
      simp [this]
    rw [h1, h2]
    simp
  unfold lay
  rw [e]
  by_cases hb : x3.node.kind = "block"
  · rw [if_pos hb, hb]; rfl
  · rw [if_neg hb]
    have : (x3.node.kind != "block") = true := by simpa using hb
    rw [this]; rfl

theorem ifStatement_lv (L : LCtx root ro cm cfg rec k l m) (h : conf l.node (.cls .ifStatement) = true) :
    W Any (New.ifStatement rec l) (Lv ro cm k l) := by
  rcases cls_at h rfl rfl rfl with ⟨x1, h1, x2, h2, x3, h3, hv⟩ | ⟨x1, h1, x2, h2, x3, h3, x4, h4, x5, h5, hv⟩
  · nrm
    have ht := tl_calm cm hv rfl
    have hk : ∀ {x : Loc}, x ∈ view l → bucketOf cm x.id = .empty ∧ x.node.extra = false := fun hx => L.kidBucket hv rfl hx
    unfold New.ifStatement
    lst
    lst
    refine W_kidL L hv.sane h2 rfl rfl rfl (fun c hc => ?_)
    lst
    refine W_then (L.kidSt hv.sane h3 rfl rfl rfl rfl) (fun q hq => ?_)
    rw [get_tryCByN hv.plain hv.view (rfl : findSg (nT "alternative") _ = some none)]
    dsimp only
    refine W_ok (lv_bwcp L.self (fun i => ?_))
    have e0 : (locs [.one (tok "if") x1, .one (kf "condition" .parenthesizedExpression) x2, .one (kf "consequence" .statement) x3]).map Loc.node
        = [x1.node, x2.node] ++ x3.node :: [] := by simp [locs, Sg.locs]
    have e1 : l.node.children = [x1.node, x2.node] ++ x3.node :: [] := by rw [kids_view L.fit.here.1 (by rw [show l.node.kind = _ from hv.kind]; rfl), hv.view.1, e0]
    have f1 : x1.node.field = none := field_eq h1 rfl
    have f2 : x2.node.field = some "condition" := field_eq h2 rfl
    have f3 : x3.node.field = some "consequence" := field_eq h3 rfl
    have hl := if_lay (x3 := x3) (ns := [x1.node, x2.node]) (by simp [f1, f2]) f3 (cs := [x1.node, x2.node]) (ds := []) rfl
    rw [nested_view L hv rfl, e0, e1, hl]
    refine Sim.append ?_ (sim_flat (punct_cnt L i).1 (punct_cnt L i).2)
    have s1 := sim_tok (w := "if ".toList) L h1 rfl rfl i i
    have s2 := sim_kid (hk h2.2) hc (ht _ h2.2) i
    by_cases hb : x3.node.kind = "block"
    · have hb' : x3.kind = "block" := hb
      simp only [if_pos hb, if_pos hb', List.cons_append, List.nil_append, kids_cons, evs_cons, evs_nil, List.append_nil]
      exact s1.append (s2.append (sim_skip (e := ev ro cm k i (t " ")) (by rw [ev_blank]; rfl) (by rw [ev_blank]; rfl) (by simpa [kids_nil, place, start] using sim_kid (hk h3.2) hq.1 (ht _ h3.2) i)))
    · have hb' : ¬ x3.kind = "block" := hb
      have p1 : place k i .branch x1.node = (none, i) := by
        simp [place, f1, show x1.node.kind = "if" from h1.kind_eq rfl]
      have p2 : place k i .branch x2.node = (none, i) := by
        simp [place, f2, show x2.node.kind = "parenthesized_expression" from h2.kind_eq rfl]
      have p3 : place k i .branch x3.node = (some (i + k), i + k) := by
        simp [place, f3, show ¬ x3.node.kind = "else" from h3.kind_ne rfl]
      simp only [if_neg hb, if_neg hb', List.cons_append, List.nil_append, kids_cons, evs_cons, evs_nil, List.append_nil, p1, p2, p3,
        kids_nil, ev_indent, ev_nl, List.append_nil]
      exact s1.append (s2.append (sim_line (sim_kid (hk h3.2) hq.1 (ht _ h3.2) (i + k)) (hq.2.bare (hk h3.2).1 _) (nested_ne k (L.fitKid h3.2) _ (hk h3.2).2)
        (nested_shift k (L.fitKid h3.2) _ (hk h3.2).2) (i + k)))
  · nrm
    have ht := tl_calm cm hv rfl
    have hk : ∀ {x : Loc}, x ∈ view l → bucketOf cm x.id = .empty ∧ x.node.extra = false := fun hx => L.kidBucket hv rfl hx
    unfold New.ifStatement
    lst
    lst
    refine W_kidL L hv.sane h2 rfl rfl rfl (fun c hc => ?_)
    lst
    refine W_then (L.kidSt hv.sane h3 rfl rfl rfl rfl) (fun q hq => ?_)
    rw [get_tryCByN hv.plain hv.view (rfl : findSg (nT "alternative") _ = some (some x5))]
    dsimp only
    rw [get_findKind hv.plain hv.view rfl (rfl : findSg (eT "else") _ = some (some x4))]
    dsimp only
    have k4 : x4.node.kind = "else" := h4.kind_eq rfl
    refine W_then (W_both (L.kid hv.sane h4 rfl rfl rfl) (L.val (L.fitKid h4.2).here k4 (hk h4.2).1)) (fun e he => ?_)
    refine W_then (L.kidSt hv.sane h5 rfl rfl rfl rfl) (fun r hr => ?_)
    refine W_ok (lv_bwcp L.self (fun i => ?_))
    have e0 : (view l).map Loc.node = [x1.node, x2.node] ++ x3.node :: [x4.node, x5.node] := by
      rw [hv.view.1]; simp [locs, Sg.locs]
    have e1 : l.node.children = [x1.node, x2.node] ++ x3.node :: [x4.node, x5.node] := by rw [kids_view L.fit.here.1 (by rw [show l.node.kind = _ from hv.kind]; rfl), e0]
    have f1 : x1.node.field = none := field_eq h1 rfl
    have f2 : x2.node.field = some "condition" := field_eq h2 rfl
    have f3 : x3.node.field = some "consequence" := field_eq h3 rfl
    have f4 : x4.node.field = none := field_eq h4 rfl
    have f5 : x5.node.field = some "alternative" := field_eq h5 rfl
    have hl := if_lay (x3 := x3) (ns := [x1.node, x2.node, x4.node, x5.node]) (by simp [f1, f2, f4, f5]) f3
      (cs := [x1.node, x2.node]) (ds := [x4.node, x5.node]) rfl
    rw [nested_view L hv rfl, ← hv.view.1, e0, e1, hl]
    refine Sim.append ?_ (sim_flat (punct_cnt L i).1 (punct_cnt L i).2)
    have s1 := sim_tok (w := "if ".toList) L h1 rfl rfl i i
    have s2 := sim_kid (hk h2.2) hc (ht _ h2.2) i
    have s4 := sim_kid (hk h4.2) he.1 (ht _ h4.2) i
    have s5 := sim_kid (hk h5.2) hr.1 (ht _ h5.2) i
    have bl : cntC (ev ro cm k i (t " ")) = 0 := by rw [ev_blank]; rfl
    have bl' : cntN (ev ro cm k i (t " ")) = 0 := by rw [ev_blank]; rfl
    by_cases hb : x3.node.kind = "block"
    · have hb' : x3.kind = "block" := hb
      simp only [if_pos hb, if_pos hb', List.cons_append, List.nil_append, kids_cons, evs_cons, evs_nil, List.append_nil]
      exact s1.append (s2.append (sim_skip bl bl' ((sim_kid (hk h3.2) hq.1 (ht _ h3.2) i).append (sim_skip bl bl' (s4.append (sim_skip bl bl'
        (by simpa [kids_nil, place, start] using s5)))))))
    · have hb' : ¬ x3.kind = "block" := hb
      have p1 : place k i .branch x1.node = (none, i) := by
        simp [place, f1, show x1.node.kind = "if" from h1.kind_eq rfl]
      have p2 : place k i .branch x2.node = (none, i) := by
        simp [place, f2, show x2.node.kind = "parenthesized_expression" from h2.kind_eq rfl]
      have p3 : place k i .branch x3.node = (some (i + k), i + k) := by
        simp [place, f3, show ¬ x3.node.kind = "else" from h3.kind_ne rfl]
      have p4 : place k i .branch x4.node = (some i, i) := by
        simp [place, k4]
      have s3 := sim_line (sim_kid (hk h3.2) hq.1 (ht _ h3.2) (i + k)) (hq.2.bare (hk h3.2).1 _) (nested_ne k (L.fitKid h3.2) _ (hk h3.2).2)
        (nested_shift k (L.fitKid h3.2) _ (hk h3.2).2) (i + k)
      have s4' := sim_line s4 (he.2.bare (hk h4.2).1 i) (nested_ne k (L.fitKid h4.2) _ (hk h4.2).2) (nested_shift k (L.fitKid h4.2) _ (hk h4.2).2) i
      by_cases h6 : x5.node.kind = "if_statement" ∨ x5.node.kind = "block"
      · have h6' : x5.kind = "if_statement" ∨ x5.kind = "block" := h6
        have p5 : place k i .branch x5.node = (none, i) := by
          rcases h6 with h6 | h6 <;> simp [place, f5, h6]
        simp only [if_neg hb, if_neg hb', if_pos h6', List.cons_append, List.nil_append, kids_cons, evs_cons, evs_nil, List.append_nil,
          p1, p2, p3, p4, p5, kids_nil, ev_indent, ev_nl]
        exact s1.append (s2.append (s3.append (s4'.append (sim_skip bl bl' s5))))
      · have h6' : ¬ (x5.kind = "if_statement" ∨ x5.kind = "block") := h6
        rw [not_or] at h6
        have p5 : place k i .branch x5.node = (some (i + k), i + k) := by
          simp [place, f5, h6.1, h6.2, show ¬ x5.node.kind = "else" from h5.kind_ne rfl]
        have hfl : flowing x5.node = true := by
          have hr := L.fit.here.2.1
          rw [regular, show l.node.kind = "if_statement" from hv.kind, e1, hl, if_neg hb] at hr
          simp [f5, h6.1, h6.2] at hr
          exact hr.2.2.2.2
        have s5' : Sim (ev ro cm k i r) (nested k (i + k) x5.node) := by
          rw [nested_flat ((L.fitKid h5.2).imp (fun _ h => h.1)) (hk h5.2).2 hfl] at s5 ⊢
          exact s5
        simp only [if_neg hb, if_neg hb', if_neg h6', List.cons_append, List.nil_append, kids_cons, evs_cons, evs_nil, List.append_nil,
          p1, p2, p3, p4, p5, kids_nil, ev_indent, ev_nl]
        exact s1.append (s2.append (s3.append (s4'.append (sim_line s5' (hr.2.bare (hk h5.2).1 i) (nested_ne k (L.fitKid h5.2) _ (hk h5.2).2)
          (nested_shift k (L.fitKid h5.2) _ (hk h5.2).2) (i + k)))))

end
end Afmt.Levels
