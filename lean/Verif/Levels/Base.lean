import Verif.Levels.Flat
import Verif.Gram.Main
import Verif.Notes.Guard

/-!
# Rules for the proofs about the levels of nodes
-/

namespace Afmt.Levels
open Gram Prog New
open Afmt.Lines (All All2)
open Afmt.Notes (Role Roles bucketOf Inky KidsB core core_ok marksX bareX cont_core memberKinds Mem Tok)

/-- All failures are accepted. -/
abbrev Any : Panic → Prop := fun _ => True

/-- Visible characters of the punctuation after the node. -/
def tl (cm : CMap) (l : Loc) : List Ev := List.replicate (lets (codeC (pcont cm l))).length .chr

/-- The program prints the comments before the node, something, and the comments after the node. -/
def Frame (ro : Comment → Role) (cm : CMap) (k : Nat) (l : Loc) (p : Prog) (Y : Nat → List Mk) : Prop :=
  ∀ i, marked ro cm k i p = marked ro cm k i (.pre l.id) ++ Y i ++ marked ro cm k i (.post l.id)

/-- The program of the node with the punctuation after it, at any indentation, without the comments around the node. -/
def Lv (ro : Comment → Role) (cm : CMap) (k : Nat) (l : Loc) (p : Prog) : Prop :=
  ∃ Y, Frame ro cm k l p Y ∧ ∀ i, Sim ((Y i).flatMap evS) (nested k i l.node ++ tl cm l)

/-- The program does not begin with white space. -/
def Fresh (ro : Comment → Role) (cm : CMap) (k : Nat) (l : Loc) (p : Prog) : Prop :=
  ∀ Y, Frame ro cm k l p Y → ∀ i, Starts ((Y i).flatMap evS)

/-- The comments of a node: only members of bodies have comments, and no punctuation is after them. -/
structure Own (cm : CMap) (l : Loc) : Prop where
  extra : l.node.extra = false
  bucket : bucketOf cm l.id = .empty ∨ (memberKinds.contains l.kind = true ∧ Punc.from l = none)
  coms : coms (pcont cm l) = []

theorem empty_atId {cm : CMap} {id : Nat} (h : bucketOf cm id = .empty) : atId cm id = [] := by
  unfold bucketOf at h
  unfold atId
  cases hg : cm.get? id with
  | none => rfl
  | some b =>
    rw [hg] at h
    simp only [Option.getD_some] at h
    subst h
    rfl

theorem mem_kids {cm : CMap} {n c : Node} (h : KidsB cm n) (hb : bodyKinds.contains n.kind = true) (hc : c ∈ n.children)
    (hx : c.extra = false) : Mem c ∨ Tok c := by
  obtain ⟨xs, bs, ys, e, hxs, hys, hbs, -⟩ := h.body hb
  rw [e, List.mem_append, List.mem_append] at hc
  rcases hc with (hc | hc) | hc
  · exact .inr (hxs c hc)
  · rcases Notes.flat_cases hbs hc with ⟨b, hb, rfl⟩ | h
    · exact .inl (Notes.blks_mem hbs hb)
    · rw [h.extra] at hx; cases hx
  · exact .inr (hys c hc)

theorem member_punct {k : String} (h : memberKinds.contains k = true) : isPunctuationKind k = false := by
  have : ∀ x ∈ memberKinds, isPunctuationKind x = false := by decide
  exact this k (List.contains_iff_mem.1 h)

/-- The comments of the nodes of a tree. -/
theorem own_of {root : Node} {cm : CMap} (g : Good root cm) (hk : All (KidsB cm) root) (hr : bucketOf cm root.id = .empty) {l : Loc}
    (h : Reach root l) : Own cm l := by
  cases h with
  | root => exact ⟨g.noExtra, .inl hr, rfl⟩
  | @kid lp _ hl hs hx ha =>
    have hx' := associable_kid hx ha
    have hK : KidsB cm lp.node := (hk.at (Notes.reach_in hl)).here
    cases hb : bodyKinds.contains lp.node.kind with
    | false =>
      refine ⟨hx', .inl (hK.calm hb _ (mem_children_node hx)).2, ?_⟩
      unfold pcont
      cases hn : nexts l with
      | nil => rfl
      | cons s r =>
        simp only
        cases hp : isPunctuationKind s.kind with
        | false => rfl
        | true =>
          simp only [if_true]
          have hsv := nexts_mem hx (by rw [hn]; simp : s ∈ nexts l)
          have hsv' := mem_view.1 hsv
          obtain ⟨-, h2⟩ := sane_punct hs s.node (mem_children_node hsv'.1) hsv'.2 hp
          have hc : s.node.children = [] := by
            simp only [tokenText, Bool.and_eq_true, List.isEmpty_iff] at h2
            exact h2.1
          have he := empty_atId (hK.calm hb _ (mem_children_node hsv'.1)).2
          have hcl : s.node.Closed := by
            cases hsn : s.node with
            | mk id kind named extra err field sr er sb eb text children =>
              rw [hsn] at hc
              cases hc
              simp [Node.Closed, kidsClosed]
          have hp := coms_cont cm s.node hcl (fun _ => hc)
          have hi : ids s.node = [s.node.id] := by
            rw [ids_eq, hc]; rfl
          rw [hi] at hp
          split at hp
          · rw [List.flatMap_cons, he] at hp
            exact List.Perm.eq_nil hp
          · exact List.Perm.eq_nil hp
    | true =>
      have hnp : ∀ s ∈ nexts l, isPunctuationKind s.kind = false := by
        intro s hsn
        have hsv := mem_view.1 (nexts_mem hx hsn)
        rcases mem_kids hK hb (mem_children_node hsv.1) hsv.2 with h | h
        · exact member_punct h.2.2
        · exact Notes.assoc_punct h.2.2
      refine ⟨hx', ?_, ?_⟩
      · by_cases hm : Mem l.node
        · refine .inr ⟨hm.2.2, ?_⟩
          rw [Gram.punc_from]
          cases hn : nexts l with
          | nil => rfl
          | cons s r => simp only [hnp s (by rw [hn]; simp), Bool.false_eq_true, if_false]
        · obtain ⟨xs, bs, ys, -, -, -, -, -, -, h⟩ := hK.body hb
          exact .inl (h _ (mem_children_node hx) hm)
      · unfold pcont
        cases hn : nexts l with
        | nil => rfl
        | cons s r => simp only [hnp s (by rw [hn]; simp), Bool.false_eq_true, if_false]; rfl

/-- Classes of nodes that begin lines. -/
def starter : Cls → Bool
  | .rootMember | .classMember | .interfaceMember | .statement | .constructInvocation | .accessorDeclaration
  | .switchRule => true
  | _ => false

/-- Classes of nodes inside of the file. -/
def lvCls : Cls → Bool
  | .root => false
  | c => plainCls c

/-- What is known while a constructor runs. -/
structure LCtx (root : Node) (ro : Comment → Role) (cm : CMap) (cfg : Cfg) (rec : Rec) (k : Nat) (l : Loc) (m : Nat) : Prop where
  ctx : Ctx root cm cfg Any rec l m
  roles : Roles ro cm
  own : ∀ {x}, Reach root x → Own cm x
  fit : All (Fit cm) l.node
  lv : ∀ {c x}, Reach root x → lvCls c = true → conf x.node (.cls c) = true → Body x → All (Fit cm) x.node →
    W Any (rec c x) (Lv ro cm k x)
  st : ∀ {c x}, Reach root x → starter c = true → conf x.node (.cls c) = true → Body x → W Any (rec c x) (Fresh ro cm k x)
  val : ∀ {x}, Fit cm x.node → x.kind = "else" → bucketOf cm x.id = .empty → W Any (rec .valueNode x) (Fresh ro cm k x)

theorem W_with {α : Type} {r : R α} {P Q : α → Prop} (h : W Any r P) (h' : W Any r (fun p => P p → Q p)) : W Any r Q := by
  cases r with
  | ok a => exact h' h
  | error e => trivial

theorem W_any {α β : Type} {r : R α} {K : α → R β} {Q : β → Prop} (h : ∀ a, W Any (K a) Q) : W Any (r >>= K) Q := by
  cases r with
  | ok a => exact h a
  | error e => trivial

theorem W_of {α : Type} {r : R α} {Q : α → Prop} (h : ∀ a, Q a) : W Any r Q := by
  cases r with
  | ok a => exact h a
  | error e => trivial

theorem W_both {α : Type} {r : R α} {P Q : α → Prop} (h : W Any r P) (h' : W Any r Q) : W Any r (fun p => P p ∧ Q p) := by
  cases r with
  | ok a => exact ⟨h, h'⟩
  | error e => trivial

section
variable {root : Node} {ro : Comment → Role} {cm : CMap} {cfg : Cfg} {rec : Rec} {k : Nat} {l : Loc} {m : Nat}

theorem LCtx.fitKid (L : LCtx root ro cm cfg rec k l m) {x : Loc} (hx : x ∈ view l) : All (Fit cm) x.node :=
  L.fit.kid (mem_children_node (mem_view.1 hx).1)

theorem LCtx.kid (L : LCtx root ro cm cfg rec k l m) (hs : sane l.kind l.node.children = true) {c : Cls} {x : Loc} {a : Atom}
    (hx : SatL l a x) (hnt : a.nt = some (.cls c)) (hb : bucketAtom a = true) (hp : lvCls c = true) :
    W Any (rec c x) (Lv ro cm k x) :=
  L.lv (L.ctx.reachKid hs hx.2 (hx.assoc hb)) hp (hx.1.2 _ hnt) (hx.body hb) (L.fitKid hx.2)

theorem LCtx.kidSt (L : LCtx root ro cm cfg rec k l m) (hs : sane l.kind l.node.children = true) {c : Cls} {x : Loc} {a : Atom}
    (hx : SatL l a x) (hnt : a.nt = some (.cls c)) (hb : bucketAtom a = true) (hp : lvCls c = true) (hc : starter c = true) :
    W Any (rec c x) (fun p => Lv ro cm k x p ∧ Fresh ro cm k x p) :=
  W_both (L.kid hs hx hnt hb hp) (L.st (L.ctx.reachKid hs hx.2 (hx.assoc hb)) hc (hx.1.2 _ hnt) (hx.body hb))

theorem W_kidL {β : Type} (L : LCtx root ro cm cfg rec k l m) (hs : sane l.kind l.node.children = true) {c : Cls} {x : Loc}
    {a : Atom} {K : Prog → R β} {Q : β → Prop} (hx : SatL l a x) (hnt : a.nt = some (.cls c)) (hb : bucketAtom a = true)
    (hp : lvCls c = true) (h : ∀ p, Lv ro cm k x p → W Any (K p) Q) : W Any (rec c x >>= K) Q :=
  W_then (L.kid hs hx hnt hb hp) h

theorem W_someL {β : Type} (L : LCtx root ro cm cfg rec k l m) (hs : sane l.kind l.node.children = true) {c : Cls} {x : Loc}
    {a : Atom} {K : Option Prog → R β} {Q : β → Prop} (hx : SatL l a x) (hnt : a.nt = some (.cls c)) (hb : bucketAtom a = true)
    (hp : lvCls c = true) (h : ∀ p, Lv ro cm k x p → W Any (K (some p)) Q) : W Any (optR (some x) (rec c) >>= K) Q := by
  have := L.kid hs hx hnt hb hp
  simp only [optR]
  cases hr : rec c x with
  | error e => trivial
  | ok p => rw [hr] at this; exact h p this

/-- Programs of siblings. -/
def Lvs (ro : Comment → Role) (cm : CMap) (k : Nat) (ps : List Prog) (xs : List Loc) : Prop := All2 (fun p x => Lv ro cm k x p) ps xs

theorem W_mapR2 {α : Type} {f : Loc → R α} {P : α → Loc → Prop} : ∀ {xs : List Loc}, (∀ x ∈ xs, W Any (f x) (fun a => P a x)) →
    W Any (mapR f xs) (fun ps => All2 P ps xs)
  | [], _ => .nil
  | x :: xs, h => by
    have h1 := h x (List.mem_cons_self ..)
    have h2 := W_mapR2 (fun y hy => h y (List.mem_cons_of_mem _ hy))
    rw [mapR]
    cases hr : f x with
    | error e => trivial
    | ok a =>
      rw [hr] at h1
      simp only
      cases hm : mapR f xs with
      | error e => trivial
      | ok as => rw [hm] at h2; exact .cons h1 h2

theorem W_mapL {β : Type} (L : LCtx root ro cm cfg rec k l m) (hs : sane l.kind l.node.children = true) {c : Cls}
    {xs : List Loc} {a : Atom} {K : List Prog → R β} {Q : β → Prop} (hx : ∀ x ∈ xs, SatL l a x)
    (hnt : a.nt = some (.cls c)) (hb : bucketAtom a = true) (hp : lvCls c = true)
    (h : ∀ ps, Lvs ro cm k ps xs → W Any (K ps) Q) : W Any (mapR (rec c) xs >>= K) Q :=
  W_then (W_mapR2 (fun x hxs => L.kid hs (hx x hxs) hnt hb hp)) h

theorem W_mapS {β : Type} (L : LCtx root ro cm cfg rec k l m) (hs : sane l.kind l.node.children = true) {c : Cls}
    {xs : List Loc} {a : Atom} {K : List Prog → R β} {Q : β → Prop} (hx : ∀ x ∈ xs, SatL l a x)
    (hnt : a.nt = some (.cls c)) (hb : bucketAtom a = true) (hp : lvCls c = true) (hc : starter c = true)
    (h : ∀ ps, All2 (fun p x => Lv ro cm k x p ∧ Fresh ro cm k x p) ps xs → W Any (K ps) Q) : W Any (mapR (rec c) xs >>= K) Q :=
  W_then (W_mapR2 (fun x hxs => L.kidSt hs (hx x hxs) hnt hb hp hc)) h

/-- Members of bodies. -/
def Mems (ro : Comment → Role) (cm : CMap) (k : Nat) (ms : List (Bool × Prog)) (xs : List Loc) : Prop :=
  All2 (fun m x => Lv ro cm k x m.2 ∧ Fresh ro cm k x m.2) ms xs

theorem W_memberL (L : LCtx root ro cm cfg rec k l m) (hs : sane l.kind l.node.children = true) {c : Cls} {x : Loc} {a : Atom}
    (hx : SatL l a x) (hnt : a.nt = some (.cls c)) (hb : bucketAtom a = true) (hp : lvCls c = true) (hc : starter c = true) :
    W Any (bodyMember cfg rec c x) (fun m => Lv ro cm k x m.2 ∧ Fresh ro cm k x m.2) := by
  have := L.kidSt hs hx hnt hb hp hc
  unfold bodyMember
  cases hr : rec c x with
  | error e => trivial
  | ok p =>
    rw [hr] at this
    simp only
    cases hasTrailingNewline cfg x with
    | error e => trivial
    | ok t => exact this

theorem W_membersL {β : Type} (L : LCtx root ro cm cfg rec k l m) (hs : sane l.kind l.node.children = true) {c : Cls}
    {xs : List Loc} {a : Atom} {K : List (Bool × Prog) → R β} {Q : β → Prop} (hx : ∀ x ∈ xs, SatL l a x)
    (hnt : a.nt = some (.cls c)) (hb : bucketAtom a = true) (hp : lvCls c = true) (hc : starter c = true)
    (h : ∀ ps, Mems ro cm k ps xs → W Any (K ps) Q) : W Any (mapR (bodyMember cfg rec c) xs >>= K) Q :=
  W_then (W_mapR2 (fun x hxs => W_memberL L hs (hx x hxs) hnt hb hp hc)) h

/-! ### The tree -/

theorem kids_append (k i : Nat) (la : Lay) (ns ms : List Node) : kids k i la (ns ++ ms) = kids k i la ns ++ kids k i la ms := by
  simp [kids]

theorem kids_view (hf : KidsB cm l.node) (hb : bodyKinds.contains l.node.kind = false) : l.node.children = (view l).map Loc.node := by
  rw [view_map, List.filter_eq_self.2]
  intro c hc
  simp [(hf.calm hb c hc).1]

theorem LCtx.self (L : LCtx root ro cm cfg rec k l m) : Own cm l := L.own L.ctx.reach

theorem nested_view (L : LCtx root ro cm cfg rec k l m) {kd : String} {sgs : List (Sg Loc)} (hv : At l kd sgs)
    (hb : bodyKinds.contains kd = false) (i : Nat) :
    nested k i l.node = kids k i (lay kd l.node.children) ((locs sgs).map Loc.node) := by
  have hkd : l.node.kind = kd := hv.kind
  have e := kids_view L.fit.here.1 (by rw [hkd]; exact hb)
  by_cases hn : l.node.children = []
  · rw [nested_eq L.self.extra, if_pos (by simp [hn])]
    rcases hv.text with h | h
    · exact absurd hn h
    · have : (locs sgs).map Loc.node = [] := by rw [← hv.view.1, ← e, hn]
      rw [h, this]; rfl
  · rw [nested_calm L.self.extra (fun c hc => (L.fit.here.1.calm (by rw [hkd]; exact hb) c hc).1) hn, hkd]
    conv => lhs; arg 4; rw [e, hv.view.1]

theorem nested_ne (k : Nat) {n : Node} (h : All (Fit cm) n) : ∀ (i : Nat), n.extra = false → nested k i n ≠ [] := by
  induction h with
  | @mk n h h' ih =>
    intro i hx
    rw [nested_eq hx]
    cases hc : n.children with
    | nil =>
      rw [if_pos (by rfl)]
      intro e
      rw [List.replicate_eq_nil_iff, List.length_eq_zero_iff] at e
      exact h.2.2.1.elim (fun h => h hc) (fun h => h e)
    | cons c cs =>
      rw [if_neg (by simp), nesteds]
      intro e
      rw [List.append_eq_nil_iff, List.append_eq_nil_iff] at e
      cases hcx : c.extra with
      | false => exact ih c (by rw [hc]; simp) _ hcx e.1.2
      | true =>
        have hcn : Notes.Note c := Notes.kid_note h.1 (by rw [hc]; simp) hcx
        have h1 := (cnt_nested k c (place k i (lay n.kind (c :: cs)) c).2).2
        rw [e.1.2] at h1
        have := (Notes.extent_note hcn)
        simp [cntC, cntN] at h1
        omega

/-- The events of a tree do not begin with the blanks of a comment. -/
theorem nested_shift (k : Nat) {n : Node} (h : All (Fit cm) n) : ∀ (i : Nat), n.extra = false → ∀ j r, nested k i n ≠ .shift j :: r := by
  induction h with
  | @mk n h h' ih =>
    intro i hx j r
    rw [nested_eq hx]
    cases hc : n.children with
    | nil =>
      rw [if_pos (by rfl)]
      cases (ink n.text).length <;> simp [List.replicate_succ]
    | cons c cs =>
      rw [if_neg (by simp), nesteds]
      have hcm : c ∈ n.children := by rw [hc]; simp
      show start (place k i (lay n.kind (c :: cs)) c).1 ++ nested k _ c ++ _ ≠ _
      cases hpl : (place k i (lay n.kind (c :: cs)) c).1 with
      | some i' => simp [start]
      | none =>
        cases hcx : c.extra with
        | false =>
          have h1 := ih c hcm (place k i (lay n.kind (c :: cs)) c).2 hcx
          have h2 := nested_ne k (h' c hcm) (place k i (lay n.kind (c :: cs)) c).2 hcx
          cases hN : nested k (place k i (lay n.kind (c :: cs)) c).2 c with
          | nil => exact absurd hN h2
          | cons y Y =>
            simp only [start, List.nil_append, List.cons_append]
            intro e
            rw [List.cons_eq_cons] at e
            rw [hN, e.1] at h1
            exact h1 _ _ rfl
        | true =>
          exfalso
          have hcn : Notes.Note c := Notes.kid_note h.1 hcm hcx
          cases hb : bodyKinds.contains n.kind with
          | false => rw [(h.1.calm hb c hcm).1] at hcx; cases hcx
          | true =>
            have : n.kind ∈ bodyKinds := by simpa using hb
            simp only [bodyKinds, List.mem_cons, List.not_mem_nil, or_false] at this
            unfold lay place at hpl
            rcases this with e | e | e | e | e <;> simp [e, bracedKinds, hcn.named] at hpl

theorem flowings_of {ns : List Node} (h : ∀ c ∈ ns, flowing c = true) : flowings ns = true := by
  induction ns with
  | nil => rfl
  | cons c cs ih =>
    rw [flowings, Bool.and_eq_true]
    exact ⟨h c (List.mem_cons_self ..), ih (fun d hd => h d (List.mem_cons_of_mem _ hd))⟩

/-! ### Atoms and segments -/

theorem sat_flowing {a : Atom} {x : Loc} (h : SatL l a x) (ha : flatAtom a = true) (hf : All (Fit cm) x.node) : flowing x.node = true := by
  cases hnt : a.nt with
  | some nt =>
    rw [flatAtom, hnt] at ha
    exact flat_flowing _ nt (h.1.2 _ hnt) ha hf
  | none =>
    rw [flatAtom, hnt] at ha
    have h6 := List.all_eq_true.1 ha x.node.kind (Lines.sat_kind h.1)
    have h7 := h.1.1
    simp only [Atom.fits, hnt, Option.isSome_none, Bool.false_or, Bool.and_eq_true, tokenText, List.isEmpty_iff] at h7
    refine flow_of (by simpa using h6) ?_
    rw [h7.2.1]
    intro x hx
    cases hx

/-- Condition on the atoms of a segment. -/
def segAll (P : Atom → Bool) : Sg Loc → Bool
  | .one a _ | .opt a _ | .many a _ => P a
  | .sep _ a s _ _ => P a && P (tok s)
  | .cond b p s _ _ => P b && P p && P (tok s) && P (tok "(") && P (tok ")")

theorem sep_all {α : Type} {a s : α → Prop} {xs vs : List α} (h : Sep a s xs vs) : ∀ v ∈ vs, a v ∨ s v := by
  induction h with
  | one h =>
    intro v hv
    rw [List.mem_singleton] at hv
    subst hv
    exact Or.inl h
  | cons h1 h2 _ ih =>
    intro v hv
    rcases List.mem_cons.1 hv with rfl | hv
    · exact Or.inl h1
    · rcases List.mem_cons.1 hv with rfl | hv
      · exact Or.inr h2
      · exact ih v hv

/-- Every child in the segments satisfies one of the atoms. -/
theorem seg_sat {P : Atom → Bool} {sg : Sg Loc} (hw : sg.WF (SatL l)) (hp : segAll P sg = true) :
    (∀ b p s xs vs, sg ≠ .cond b p s xs vs) → ∀ x ∈ sg.locs, ∃ a, P a = true ∧ SatL l a x := by
  intro hc x hx
  cases sg with
  | one a y =>
    simp only [Sg.locs, List.mem_singleton] at hx
    subst hx
    exact ⟨a, hp, hw⟩
  | opt a o =>
    simp only [Sg.locs, Option.mem_toList] at hx
    exact ⟨a, hp, hw x hx⟩
  | many a xs => exact ⟨a, hp, hw x hx⟩
  | sep ne a s xs vs =>
    simp only [segAll, Bool.and_eq_true] at hp
    rcases hw with ⟨-, -, e⟩ | h
    · rw [Sg.locs, e] at hx; cases hx
    · rcases sep_all h x hx with h | h
      · exact ⟨a, hp.1, h⟩
      · exact ⟨_, hp.2, h⟩
  | cond b p s xs vs => exact absurd rfl (hc b p s xs vs)

/-- Not the operands of a condition. -/
def noCond : Sg Loc → Bool
  | .cond .. => false
  | _ => true

theorem segs_sat {P : Atom → Bool} : ∀ {sgs : List (Sg Loc)}, (∀ sg ∈ sgs, sg.WF (SatL l)) →
    sgs.all (fun sg => noCond sg && segAll P sg) = true → ∀ x ∈ locs sgs, ∃ a, P a = true ∧ SatL l a x
  | [], _, _, x, hx => by cases hx
  | sg :: sgs, hw, hp, x, hx => by
    rw [List.all_cons, Bool.and_eq_true, Bool.and_eq_true] at hp
    rw [locs] at hx
    rcases List.mem_append.1 hx with hx | hx
    · refine seg_sat (hw sg (List.mem_cons_self ..)) hp.1.2 ?_ x hx
      rintro b p s xs vs rfl
      exact absurd hp.1.1 (by simp [noCond])
    · exact segs_sat (fun s hs => hw s (List.mem_cons_of_mem _ hs)) hp.2 x hx

/-- The children of the segments contain no bodies. -/
abbrev flatSgs (sgs : List (Sg Loc)) : Bool := sgs.all (fun sg => noCond sg && segAll flatAtom sg)

theorem kids_flat {ns : List Node} (hk : ∀ c ∈ ns, All (Fit cm) c ∧ c.extra = false) (h : flowings ns = true) (k i : Nat) :
    kids k i .flow ns = List.replicate (lexs ns).length .chr := by
  induction ns with
  | nil => rfl
  | cons c cs ih =>
    rw [flowings, Bool.and_eq_true] at h
    rw [kids_cons, ih (fun d hd => hk d (by simp [hd])) h.2]
    simp only [place, start, List.nil_append, lexs, List.length_append]
    rw [nested_flat ((hk c (by simp)).1.imp (fun _ h => h.1)) (hk c (by simp)).2 h.1, List.replicate_append_replicate]

theorem flat_sgs (hf : All (Fit cm) l.node) {sgs : List (Sg Loc)} (hw : ∀ sg ∈ sgs, sg.WF (SatL l)) (h : flatSgs sgs = true) :
    flowings ((locs sgs).map Loc.node) = true := by
  refine flowings_of ?_
  intro c hc
  obtain ⟨x, hx, rfl⟩ := List.mem_map.1 hc
  obtain ⟨a, ha, hs⟩ := segs_sat hw h x hx
  exact sat_flowing hs ha (hf.kid (mem_children_node (mem_view.1 hs.2).1))

/-- No child of the segments is `,` or `;`. -/
abbrev calmSgs (sgs : List (Sg Loc)) : Bool := sgs.all (fun sg => noCond sg && segAll noPunct sg)

theorem nexts_view {x : Loc} (hx : x ∈ view l) : ∀ y ∈ nexts x, y ∈ view l := by
  intro y hy
  rw [nexts, List.mem_filter] at hy
  rw [view, List.mem_filter] at hx ⊢
  exact ⟨childrenGo_right l [] _ x hx.1 y hy.1, hy.2⟩

theorem tl_nil (cm : CMap) {x : Loc} (h : pcont cm x = []) : tl cm x = [] := by
  rw [tl, h]; rfl

theorem tl_calm (cm : CMap) {kd : String} {sgs : List (Sg Loc)} (hv : At l kd sgs) (h : calmSgs sgs = true) :
    ∀ x ∈ view l, tl cm x = [] := by
  intro x hx
  refine tl_nil cm ?_
  have := nexts_view hx
  unfold pcont
  cases hn : nexts x with
  | nil => rfl
  | cons y r =>
    have hy : y ∈ view l := this y (by rw [hn]; exact List.mem_cons_self ..)
    rw [hv.view.1] at hy
    obtain ⟨a, ha, hs⟩ := segs_sat hv.view.2 h y hy
    simp only [noPunct_sat hs ha, Bool.false_eq_true, if_false]

theorem nexts_last {A : List Loc} {x : Loc} : Nexts (A ++ [x]) → nexts x = [] := by
  induction A with
  | nil => intro h; exact h.1
  | cons y A ih => intro h; exact ih h.2

theorem locs_append (a b : List (Sg Loc)) : locs (a ++ b) = locs a ++ locs b := by
  induction a with
  | nil => rfl
  | cons x a ih => rw [List.cons_append, locs, locs, ih, List.append_assoc]

/-! ### Programs -/

theorem full_cnt (cm : CMap) (x : Loc) : (lets (codeC (full cm x))).length = (lex x.node).length + (lets (codeC (pcont cm x))).length := by
  rw [full, codeC_append, lets_append, List.length_append, lets_cont]

/-- The characters between the comments around the node. -/
theorem frame_cnt (L : LCtx root ro cm cfg rec k l m) {p : Prog} {X : List Ev} (i : Nat)
    (hF : ev ro cm k i p = ev ro cm k i (.pre l.id) ++ X ++ ev ro cm k i (.post l.id)) (hs : Sx (items cm p) (full cm l)) :
    cntC X = (lex l.node).length + (lets (codeC (pcont cm l))).length ∧ cntN X ≤ cntN (nested k i l.node) := by
  obtain ⟨h1, h2⟩ := sx_cnt L.roles hs k i
  obtain ⟨p1, p2⟩ := cnt_pre L.roles k i l.id
  obtain ⟨q1, q2⟩ := cnt_post L.roles k i l.id
  rw [hF, cntC_append, cntC_append, p1, q1, full_cnt] at h1
  refine ⟨by omega, ?_⟩
  rw [hF, cntN_append, cntN_append, p2, q2, full, coms_append, L.self.coms, List.append_nil, cont_core cm L.self.extra,
    coms_append, coms_append, noteN_append, noteN_append] at h2
  have hb : noteN (coms (if l.node.named || isAssociableUnnamedKind l.node.kind then bcom cm l.node.kind l.node.id else [])) ≤
      noteN (bucketOf cm l.id).pre := by
    split
    · have hd := L.roles.dangling l.id
      unfold bcom
      unfold bucketOf at hd ⊢
      cases hg : cm.get? l.node.id with
      | none => exact Nat.zero_le _
      | some b =>
        rw [show cm.get? l.id = some b from hg] at hd ⊢
        simp only [Option.getD_some] at hd ⊢
        rw [hd]
        simp only [coms_append, coms_com]
        rw [List.append_nil]
        exact Nat.le_refl _
    · exact Nat.zero_le _
  have ha : noteN (coms (if l.node.named || isAssociableUnnamedKind l.node.kind then acom cm l.node.kind l.node.id else [])) ≤
      noteN (bucketOf cm l.id).post := by
    split
    · unfold acom
      unfold bucketOf
      cases hg : cm.get? l.node.id with
      | none => exact Nat.zero_le _
      | some b =>
        rw [show cm.get? l.id = some b from hg]
        simp only [Option.getD_some, coms_com]
        exact Nat.le_refl _
    · exact Nat.zero_le _
  have hl : lets (codeC (core cm l.node)) = lex l.node := by
    have := lets_cont cm l.node
    rwa [cont_core cm L.self.extra, codeC_append, codeC_append, codeC_bcomIf, codeC_acomIf, List.nil_append, List.append_nil] at this
  have hc := marksX_length ro (core cm l.node) none
  obtain ⟨⟨t, t1, t2⟩, -⟩ := core_ok L.roles (L.fit.imp (fun _ h => ⟨h.1, h.2.2.1⟩)) L.self.extra
  rw [t1 none (by simp), List.length_cons, t2, hl] at hc
  obtain ⟨n1, n2⟩ := cnt_nested k l.node i
  omega

/-- A frame in terms of events. -/
theorem Frame.ev {p : Prog} {Y : Nat → List Mk} (h : Frame ro cm k l p Y) (i : Nat) :
    ev ro cm k i p = ev ro cm k i (.pre l.id) ++ (Y i).flatMap evS ++ ev ro cm k i (.post l.id) := by
  unfold Levels.ev
  rw [h i, List.flatMap_append, List.flatMap_append]

theorem frame_bare (h : bucketOf cm l.id = .empty) (p : Prog) : Frame ro cm k l p (fun i => marked ro cm k i p) := by
  intro i
  rw [marked, marked, h]
  simp [Bucket.empty]

/-- Nodes without comments. -/
theorem lv_bare (h : bucketOf cm l.id = .empty) {p : Prog} (hs : ∀ i, Sim (ev ro cm k i p) (nested k i l.node ++ tl cm l)) :
    Lv ro cm k l p := ⟨_, frame_bare h p, hs⟩

theorem Frame.bare (h : bucketOf cm l.id = .empty) {p : Prog} {Y : Nat → List Mk} (hF : Frame ro cm k l p Y) (i : Nat) :
    marked ro cm k i p = Y i := by
  have := hF i
  rw [marked, marked, h] at this
  simpa [Bucket.empty] using this

theorem Lv.bare (h : bucketOf cm l.id = .empty) {p : Prog} (hs : Lv ro cm k l p) (i : Nat) :
    Sim (ev ro cm k i p) (nested k i l.node ++ tl cm l) := by
  obtain ⟨Y, hF, hs⟩ := hs
  rw [Levels.ev, hF.bare h i]
  exact hs i

theorem Fresh.bare (h : bucketOf cm l.id = .empty) {p : Prog} (hs : Fresh ro cm k l p) (i : Nat) : Starts (ev ro cm k i p) :=
  hs _ (frame_bare h p) i

/-- The program has a frame. -/
def Framed (ro : Comment → Role) (cm : CMap) (k : Nat) (l : Loc) (p : Prog) : Prop := ∃ Y, Frame ro cm k l p Y

theorem flat_lv (L : LCtx root ro cm cfg rec k l m) {p : Prog} (h : Sx (items cm p) (full cm l)) (hf : flowing l.node = true)
    (hF : Framed ro cm k l p) : Lv ro cm k l p := by
  obtain ⟨Y, hF⟩ := hF
  refine ⟨Y, hF, fun i => ?_⟩
  obtain ⟨h1, h2⟩ := frame_cnt L i (hF.ev i) h
  have e := nested_flat (L.fit.imp (fun _ h => h.1)) L.self.extra hf k i
  rw [e, cntN_chrs] at h2
  rw [e, tl, List.replicate_append_replicate]
  exact sim_flat h1 (by omega)

theorem markeds_append (k i : Nat) (ps qs : List Prog) :
    markeds ro cm k i (ps ++ qs) = markeds ro cm k i ps ++ markeds ro cm k i qs := by
  induction ps with
  | nil => rw [markeds]; rfl
  | cons p ps ih => rw [List.cons_append, markeds, markeds, ih, List.append_assoc]

theorem marked_wcp (k i id : Nat) (p : Option Punc) (ms : List Prog) : marked ro cm k i (withCommentsAndPunc id p ms) =
    marked ro cm k i (.pre id) ++ markeds ro cm k i ms ++ marked ro cm k i (.post id) ++ markeds ro cm k i (punctOpt p) := by
  rw [withCommentsAndPunc, marked, markeds_append, markeds, markeds, markeds, markeds]
  conv => lhs; arg 1; arg 2; rw [marked, marked]
  simp [marked, markeds]

theorem marked_attached (k i id : Nat) (p : Option Punc) (ms : List Prog) : marked ro cm k i (withCommentsAndPuncAttached id p ms) =
    marked ro cm k i (.pre id) ++ (markeds ro cm k i ms ++ markeds ro cm k i (punctOpt p)) ++ marked ro cm k i (.post id) := by
  rw [withCommentsAndPuncAttached, marked, markeds_append, markeds_append]
  simp [marked, markeds]

theorem marked_bwc (k i : Nat) (l : Loc) (ms : List Prog) : marked ro cm k i (bwc l ms) =
    marked ro cm k i (.pre l.id) ++ markeds ro cm k i ms ++ marked ro cm k i (.post l.id) := by
  rw [bwc, withComments, marked, markeds, markeds, markeds]
  simp [marked, markeds, markeds_append]

theorem frame_wcp (h : Own cm l) (p : Option Punc) (hp : bucketOf cm l.id = .empty ∨ p = none) (ms : List Prog) :
    Frame ro cm k l (withCommentsAndPunc l.id p ms) (fun i => markeds ro cm k i ms ++ markeds ro cm k i (punctOpt p)) := by
  intro i
  rw [marked_wcp]
  rcases hp with hp | hp
  · have e1 : marked ro cm k i (.pre l.id) = [] := by rw [marked, hp]; rfl
    have e2 : marked ro cm k i (.post l.id) = [] := by rw [marked, hp]; rfl
    rw [e1, e2]
    simp
  · rw [hp, punctOpt]
    simp [markeds]

theorem frame_bwcp (h : Own cm l) (ms : List Prog) :
    Frame ro cm k l (bwcp l ms) (fun i => markeds ro cm k i ms ++ markeds ro cm k i (punctOpt (Punc.from l))) :=
  frame_wcp h _ (h.bucket.imp id (·.2)) ms

theorem frame_bwc (ms : List Prog) : Frame ro cm k l (bwc l ms) (fun i => markeds ro cm k i ms) := fun i => marked_bwc k i l ms

theorem frame_attached (p : Option Punc) (ms : List Prog) : Frame ro cm k l (withCommentsAndPuncAttached l.id p ms)
    (fun i => markeds ro cm k i ms ++ markeds ro cm k i (punctOpt p)) := fun i => marked_attached k i l.id p ms

theorem lv_bwcp (h : Own cm l) {ms : List Prog}
    (hs : ∀ i, Sim (evs ro cm k i ms ++ evs ro cm k i (punctOpt (Punc.from l))) (nested k i l.node ++ tl cm l)) :
    Lv ro cm k l (bwcp l ms) :=
  ⟨_, frame_bwcp h ms, fun i => by rw [List.flatMap_append]; exact hs i⟩

theorem lv_bwc {ms : List Prog} (hs : ∀ i, Sim (evs ro cm k i ms) (nested k i l.node ++ tl cm l)) : Lv ro cm k l (bwc l ms) :=
  ⟨_, frame_bwc ms, hs⟩

theorem punct_cnt (L : LCtx root ro cm cfg rec k l m) (i : Nat) :
    cntC (evs ro cm k i (punctOpt (Punc.from l))) = (lets (codeC (pcont cm l))).length ∧
    cntN (evs ro cm k i (punctOpt (Punc.from l))) = 0 := by
  obtain ⟨h1, h2⟩ := sxs_cnt L.roles (punct_opt L.ctx.good L.ctx.reach) k i
  rw [L.self.coms] at h2
  exact ⟨h1, Nat.le_zero.1 h2⟩

theorem last_split {α : Type} {ps : List α} {q : α} (h : ps.getLast? = some q) : ps = ps.dropLast ++ [q] := by
  obtain ⟨ys, rfl⟩ := List.getLast?_eq_some_iff.1 h
  rw [List.dropLast_concat]

theorem lay_body {kd : String} (hk : layKinds.contains kd = false) : bodyKinds.contains kd = false := flow_body (lay_flow hk [])

/-- Children of nodes that are no bodies have no comments. -/
theorem LCtx.kidBucket (L : LCtx root ro cm cfg rec k l m) {kd : String} {sgs : List (Sg Loc)} (hv : At l kd sgs)
    (hb : bodyKinds.contains kd = false) {x : Loc} (hx : x ∈ view l) : bucketOf cm x.id = .empty ∧ x.node.extra = false :=
  ⟨(L.fit.here.1.calm (by rw [show l.node.kind = kd from hv.kind]; exact hb) x.node (mem_children_node (mem_view.1 hx).1)).2,
    (mem_view.1 hx).2⟩

/-- The last child is the only one that contains bodies, and its program comes last. -/
theorem tail_ev (L : LCtx root ro cm cfg rec k l m) {kd : String} {sgs : List (Sg Loc)} (hv : At l kd sgs)
    (hk : layKinds.contains kd = false) {a : Atom} {x : Loc} (hlast : sgs.getLast? = some (.one a x))
    (hinit : flatSgs sgs.dropLast = true) {p q : Prog} (hs : Sx (items cm p) (full cm l)) (hq : Lv ro cm k x q)
    {Y : Nat → List Mk} (hF : Frame ro cm k l p Y)
    (he : ∀ i, ∃ E E', (Y i).flatMap evS = E ++ ev ro cm k i q ++ E' ∧ cntC E' = (lets (codeC (pcont cm l))).length) : Lv ro cm k l p := by
  refine ⟨Y, hF, fun i => ?_⟩
  have e1 : sgs = sgs.dropLast ++ [.one a x] := last_split hlast
  have e2 : locs sgs = locs sgs.dropLast ++ [x] := by
    conv => lhs; rw [e1]
    rw [locs_append]; rfl
  have hxv : x ∈ view l := by rw [hv.view.1, e2]; simp
  have hx : tl cm x = [] := by
    refine tl_nil cm (pcont_last (nexts_last (A := locs sgs.dropLast) ?_))
    rw [← e2, ← hv.view.1]
    exact view_nexts l
  have hfl : flowings ((locs sgs.dropLast).map Loc.node) = true :=
    flat_sgs L.fit (fun s h => hv.view.2 s (List.dropLast_subset _ h)) hinit
  have hall : ∀ c ∈ (locs sgs.dropLast).map Loc.node, All (Fit cm) c ∧ c.extra = false := by
    intro c hc
    obtain ⟨y, hy, rfl⟩ := List.mem_map.1 hc
    have hyv : y ∈ view l := by rw [hv.view.1, e2]; simp [hy]
    exact ⟨L.fitKid hyv, (mem_view.1 hyv).2⟩
  have e3 := nested_view L hv (lay_body hk) i
  rw [lay_flow hk, e2, List.map_append, kids_append, kids_flat hall hfl] at e3
  have e4 : kids k i .flow (List.map Loc.node [x]) = nested k i x.node := by
    show start none ++ nested k i x.node ++ [] = _
    rw [List.append_nil]; rfl
  rw [e4] at e3
  obtain ⟨E, E', h1, h2⟩ := he i
  have hqi := hq.bare (L.kidBucket hv (lay_body hk) hxv).1 i
  rw [hx, List.append_nil] at hqi
  obtain ⟨hc, hn⟩ := frame_cnt L i (hF.ev i) hs
  rw [← (cnt_nested k l.node i).1, e3, h1, cntC_append, cntC_append, cntC_append, cntC_chrs, h2, hqi.cntC] at hc
  rw [e3, h1, cntN_append, cntN_append, cntN_append, cntN_chrs, hqi.cntN] at hn
  rw [e3, tl, h1]
  exact ((sim_flat (by omega) (by omega)).append hqi).append (sim_flat h2 (by omega))

theorem tail_case (L : LCtx root ro cm cfg rec k l m) {kd : String} {sgs : List (Sg Loc)} (hv : At l kd sgs)
    (hk : layKinds.contains kd = false) {a : Atom} {x : Loc} (hlast : sgs.getLast? = some (.one a x))
    (hinit : flatSgs sgs.dropLast = true) {ms : List Prog} {q : Prog} (hm : ms.getLast? = some q)
    (hs : Sx (items cm (bwcp l ms)) (full cm l)) (hq : Lv ro cm k x q) : Lv ro cm k l (bwcp l ms) := by
  refine tail_ev L hv hk hlast hinit hs hq (frame_bwcp L.self ms)
    (fun i => ⟨evs ro cm k i ms.dropLast, evs ro cm k i (punctOpt (Punc.from l)), ?_, (punct_cnt L i).1⟩)
  rw [List.flatMap_append]
  show evs ro cm k i ms ++ evs ro cm k i _ = _
  conv => lhs; arg 1; rw [last_split hm]
  rw [evs_append, evs_cons, evs_nil, List.append_nil]

/-- Nodes that are never followed by punctuation. -/
theorem tail_quiet (L : LCtx root ro cm cfg rec k l m) {kd : String} {sgs : List (Sg Loc)} (hv : At l kd sgs)
    (hk : layKinds.contains kd = false) {a : Atom} {x : Loc} (hlast : sgs.getLast? = some (.one a x))
    (hinit : flatSgs sgs.dropLast = true) (hq : quietKinds.contains kd = true) {ms : List Prog} {q : Prog}
    (hm : ms.getLast? = some q) {p : Prog} (he : Frame ro cm k l p (fun i => markeds ro cm k i ms))
    (hs : Sx (items cm p) (full cm l)) (hlv : Lv ro cm k x q) : Lv ro cm k l p := by
  refine tail_ev L hv hk hlast hinit hs hlv he (fun i => ⟨evs ro cm k i ms.dropLast, [], ?_, ?_⟩)
  · show evs ro cm k i ms = _
    conv => lhs; rw [last_split hm]
    rw [evs_append, evs_cons, evs_nil, List.append_nil, List.append_nil]
  · rw [L.ctx.reach.quiet cm (by rw [hv.kind]; exact hq)]
    rfl

end
end Afmt.Levels
