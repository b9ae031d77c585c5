import Verif.Gram.Reach

/-!
# The children of a node that follows a production
-/

namespace Afmt.Gram
open Prog

/-- A child matches an atom. -/
def SatL (l : Loc) (a : Atom) (x : Loc) : Prop := Sat a x.node ∧ x ∈ view l

/-- The children of the node are these segments. -/
def View (l : Loc) (sgs : List (Sg Loc)) : Prop := view l = locs sgs ∧ ∀ sg ∈ sgs, sg.WF (SatL l)

/-- What `conf` says about the node itself. -/
theorem conf_node {n : Node} {nt : NT} (h : conf n nt = true) :
    n.extra = false ∧ ∀ ks, (nt.core n.kind).kinds = some ks → n.kind ∈ ks := by
  cases n with
  | mk id kind named extra err field sr er sb eb text children =>
    rw [conf] at h
    simp only [Bool.and_eq_true, Bool.not_eq_true'] at h
    refine ⟨h.1.1, ?_⟩
    intro ks hks
    have := h.1.2
    simp only at hks
    rw [hks] at this
    simpa using this

theorem conf_alts {n : Node} {nt : NT} (h : conf n nt = true) {val : Bool} {ps : List (List Spec)}
    (hp : prod (nt.core n.kind) = .alts val ps) :
    (val = true ∧ spelled n = true ∧ ∀ c ∈ n.children, c.named = false) ∨
    (sane n.kind n.children = true ∧ dmlSane n = true ∧ (n.children ≠ [] ∨ ink n.text = []) ∧
      confs n.children (rxAlts ps) = true) := by
  cases n with
  | mk id kind named extra err field sr er sb eb text children =>
    rw [conf] at h
    simp only at hp
    simp only [Bool.and_eq_true, hp, Bool.or_eq_true] at h
    rcases h.2 with ⟨⟨h1, h2⟩, h3⟩ | ⟨⟨⟨h1, h2⟩, h3⟩, h4⟩
    · left
      refine ⟨h1, h2, ?_⟩
      simp only [List.all_eq_true] at h3
      intro c hc
      simpa using h3 c hc
    · right
      refine ⟨h1, h2, ?_, h4⟩
      simpa using h3

theorem conf_words {n : Node} {nt : NT} (h : conf n nt = true) {tbl : List (String × String)}
    (hp : prod (nt.core n.kind) = .words tbl) :
    spelled n = true ∧ (∀ e ∈ lex n, e.1 = true) ∧ ∃ e ∈ tbl, e.1 = n.kind ∧ foldL (letters false n.text) = foldL (letters false e.2.toList) := by
  cases n with
  | mk id kind named extra err field sr er sb eb text children =>
    rw [conf] at h
    simp only at hp
    simp only [Bool.and_eq_true, hp, List.any_eq_true, List.all_eq_true, beq_iff_eq] at h
    exact ⟨h.2.1.1, fun e he => h.2.1.2 e he, by obtain ⟨e, he, h1, h2⟩ := h.2.2; exact ⟨e, he, h1, h2⟩⟩

theorem conf_value {n : Node} {nt : NT} (h : conf n nt = true) (hp : prod (nt.core n.kind) = .value) :
    spelled n = true ∧ (nt.core n.kind = .cls .valueNode ∨ nt.core n.kind = .securityWho ∨ ∀ e ∈ lex n, e.1 = true) := by
  cases n with
  | mk id kind named extra err field sr er sb eb text children =>
    rw [conf] at h
    simp only at hp
    simp only [Bool.and_eq_true, hp, Bool.or_eq_true, beq_iff_eq, List.all_eq_true] at h
    refine ⟨h.2.1, ?_⟩
    rcases h.2.2 with (h | h) | h
    · exact Or.inl h
    · exact Or.inr (Or.inl h)
    · exact Or.inr (Or.inr (fun e he => h e he))

/-- Decomposition of the children. -/
theorem view_of {l : Loc} {ps : List (List Spec)} (h : confs l.node.children (rxAlts ps) = true) :
    ExAlts (SatL l) ps (View l) := by
  have h1 := confs_sound _ _ h
  rw [← view_map] at h1
  have h2 := lang_mem _ (lang_map _ _ h1) (z := view l) (fun x hx => hx)
  obtain ⟨p, hp, h3⟩ := lang_alts h2
  exact exAlts_of hp (lang_ex (View l) h3 (fun sgs h1 h2 => ⟨h1, h2⟩))

/-! ### Finding children -/

/-- Test of the field name. -/
def nT (f : String) (a : Atom) : Option Bool :=
  if !a.fields.isEmpty && a.fields.all (· == some f) then some true
  else if a.fields.all (· != some f) then some false else none

/-- Test of the kind of named children. -/
def kT (k : String) (a : Atom) : Option Bool :=
  if !a.named then some false
  else if !a.kinds.isEmpty && a.kinds.all (· == k) then some true
  else if a.kinds.all (· != k) then some false else none

/-- Test of the kind of all children. -/
def eT (k : String) (a : Atom) : Option Bool :=
  if !a.kinds.isEmpty && a.kinds.all (· == k) then some true
  else if a.kinds.all (· != k) then some false else none

/-- Test for punctuation. -/
def pT (a : Atom) : Option Bool :=
  if !a.kinds.isEmpty && a.kinds.all isPunctuationKind then some true
  else if a.kinds.all (fun k => !isPunctuationKind k) then some false else none

/-- Test for named children. -/
def mT (a : Atom) : Option Bool := some a.named

/-- The test `p` of atoms decides the test `q` of children. -/
def Decides (l : Loc) (p : Atom → Option Bool) (q : Loc → Bool) : Prop :=
  ∀ a x b, SatL l a x → p a = some b → q x = b

section
variable {l : Loc}

theorem fits_iff {a : Atom} {n : Node} (h : a.fits n = true) :
    n.named = a.named ∧ n.field ∈ a.fields ∧ n.kind ∈ a.kinds ∧ (a.nt.isSome = true ∨ tokenText n = true) := by
  simp only [Atom.fits, Bool.and_eq_true, beq_iff_eq, List.contains_iff_mem, Bool.or_eq_true] at h
  exact ⟨h.1.1.1, h.1.1.2, h.1.2, h.2⟩

theorem SatL.fits {a : Atom} {x : Loc} (h : SatL l a x) :
    x.node.named = a.named ∧ x.node.field ∈ a.fields ∧ x.node.kind ∈ a.kinds ∧
      (a.nt.isSome = true ∨ tokenText x.node = true) := fits_iff h.1.1

theorem SatL.noExtra {a : Atom} {x : Loc} (h : SatL l a x) : x.node.extra = false := (mem_view.1 h.2).2

theorem all_test {α : Type} {ks : List α} {f : α → Bool} {k : α} (hk : k ∈ ks) {b : Bool}
    (h : (if !ks.isEmpty && ks.all f then some true else if ks.all (fun k => !f k) then some false else none) = some b) :
    f k = b := by
  split at h
  · rename_i h1
    simp only [Bool.and_eq_true, List.all_eq_true] at h1
    cases h; exact h1.2 k hk
  · split at h
    · rename_i h1
      simp only [List.all_eq_true] at h1
      cases h; simpa using h1 k hk
    · cases h

theorem decides_nT (f : String) : Decides l (nT f) (fun c => c.node.field == some f) := by
  intro a x b h hp
  exact all_test (f := fun y => y == some f) h.fits.2.1 hp

theorem decides_eT (k : String) : Decides l (eT k) (fun c => c.kind == k) := by
  intro a x b h hp
  exact all_test (f := fun y => y == k) h.fits.2.2.1 hp

theorem decides_pT : Decides l pT (fun c => isPunctuationKind c.kind) := by
  intro a x b h hp
  exact all_test (f := isPunctuationKind) h.fits.2.2.1 hp

theorem decides_kT (k : String) : Decides l (kT k) (fun c => c.named && c.kind == k) := by
  intro a x b h hp
  unfold kT at hp
  have hn : x.named = a.named := h.fits.1
  split at hp
  · rename_i h1
    cases hp
    simp only [Bool.not_eq_true'] at h1
    simp [hn, h1]
  · rename_i h1
    simp only [Bool.not_eq_true', Bool.not_eq_false] at h1
    have := all_test (f := fun y => y == k) h.fits.2.2.1 hp
    simp only [hn, h1, Bool.true_and]
    exact this

theorem decides_mT : Decides l mT (fun c => c.named) := by
  intro a x b h hp
  cases hp
  exact h.fits.1

/-- The first child for which the test holds, if the atoms determine it. -/
def findSg (p : Atom → Option Bool) : List (Sg Loc) → Option (Option Loc)
  | [] => some none
  | .one a x :: t => match p a with
    | some true => some (some x)
    | some false => findSg p t
    | none => none
  | .opt a o :: t => match p a with
    | some true => match findSg p t with
      | some none => some o
      | _ => none
    | some false => findSg p t
    | none => none
  | .many a _ :: t => match p a with
    | some false => findSg p t
    | _ => none
  | .sep ne a s xs _ :: t => match p a with
    | some false => match p (tok s) with
      | some false => findSg p t
      | _ => none
    | some true => if ne then some xs.head? else none
    | none => none
  | .cond .. :: _ => none

theorem sep_none {p : Atom → Option Bool} {q : Loc → Bool} (hq : Decides l p q) {a : Atom} {s : String}
    (ha : p a = some false) (hs : p (tok s) = some false) {xs vs : List Loc} (h : Sep (SatL l a) (SatL l (tok s)) xs vs) :
    ∀ v ∈ vs, q v = false := by
  induction h with
  | one h => simpa using hq _ _ _ h ha
  | cons h h' _ ih =>
    intro v hv
    simp only [List.mem_cons] at hv
    rcases hv with rfl | rfl | hv
    · exact hq _ _ _ h ha
    · exact hq _ _ _ h' hs
    · exact ih v hv

theorem find_none_append {α : Type} {q : α → Bool} {a b : List α} (h : ∀ x ∈ a, q x = false) :
    (a ++ b).find? q = b.find? q := by
  induction a with
  | nil => rfl
  | cons x a ih =>
    rw [List.cons_append, List.find?_cons, h x (by simp)]
    exact ih (fun y hy => h y (by simp [hy]))

theorem findSg_sound {p : Atom → Option Bool} {q : Loc → Bool} (hq : Decides l p q) :
    ∀ {sgs : List (Sg Loc)} {r : Option Loc}, (∀ sg ∈ sgs, sg.WF (SatL l)) → findSg p sgs = some r →
      (locs sgs).find? q = r
  | [], r, _, h => by cases h; rfl
  | .one a x :: t, r, hw, h => by
    have hx : SatL l a x := hw (.one a x) (by simp)
    have ih := fun r => findSg_sound (sgs := t) (r := r) hq (fun sg hsg => hw sg (by simp [hsg] : sg ∈ Sg.one a x :: t))
    rw [findSg] at h
    simp only [locs, Sg.locs, List.cons_append, List.nil_append, List.find?_cons]
    split at h
    · rename_i ha; cases h; rw [hq _ _ _ hx ha]
    · rename_i ha; rw [hq _ _ _ hx ha]; exact ih r h
    · cases h
  | .opt a o :: t, r, hw, h => by
    have hx : ∀ x, o = some x → SatL l a x := hw (.opt a o) (by simp)
    have ih := fun r => findSg_sound (sgs := t) (r := r) hq (fun sg hsg => hw sg (by simp [hsg] : sg ∈ Sg.opt a o :: t))
    rw [findSg] at h
    simp only [locs, Sg.locs]
    cases o with
    | none =>
      simp only [Option.toList, List.nil_append]
      split at h
      · split at h
        · rename_i h2; cases h; exact ih _ h2
        · cases h
      · exact ih r h
      · cases h
    | some x =>
      simp only [Option.toList, List.cons_append, List.nil_append, List.find?_cons]
      split at h
      · rename_i ha
        rw [hq _ _ _ (hx x rfl) ha]
        split at h
        · cases h; rfl
        · cases h
      · rename_i ha; rw [hq _ _ _ (hx x rfl) ha]; exact ih r h
      · cases h
  | .many a xs :: t, r, hw, h => by
    have hx : ∀ x ∈ xs, SatL l a x := hw (.many a xs) (by simp)
    have ih := fun r => findSg_sound (sgs := t) (r := r) hq (fun sg hsg => hw sg (by simp [hsg] : sg ∈ Sg.many a xs :: t))
    rw [findSg] at h
    simp only [locs, Sg.locs]
    split at h
    · rename_i ha
      rw [find_none_append (fun x hx' => hq _ _ _ (hx x hx') ha)]
      exact ih r h
    · cases h
  | .sep ne a s xs vs :: t, r, hw, h => by
    have hx : (ne = false ∧ xs = [] ∧ vs = []) ∨ Sep (SatL l a) (SatL l (tok s)) xs vs :=
      hw (.sep ne a s xs vs) (by simp)
    have ih := fun r => findSg_sound (sgs := t) (r := r) hq (fun sg hsg => hw sg (by simp [hsg] : sg ∈ Sg.sep ne a s xs vs :: t))
    rw [findSg] at h
    simp only [locs, Sg.locs]
    split at h
    · rename_i ha
      split at h
      · rename_i hs
        rw [find_none_append]
        · exact ih r h
        · rcases hx with ⟨_, _, rfl⟩ | hx
          · simp
          · exact sep_none hq ha hs hx
      · cases h
    · rename_i ha
      split at h
      · rename_i hne
        subst hne
        cases h
        rcases hx with ⟨h, _⟩ | hx
        · cases h
        · cases hx with
          | one h => simp [hq _ _ _ h ha]
          | cons h _ _ => simp [hq _ _ _ h ha]
      · cases h
    · cases h
  | .cond b p' s xs vs :: t, r, hw, h => by rw [findSg] at h; cases h

/-- The children for which the test holds, if the atoms determine them. -/
def filterSg (p : Atom → Option Bool) : List (Sg Loc) → Option (List Loc)
  | [] => some []
  | .one a x :: t => match p a with
    | some true => match filterSg p t with
      | some r => some (x :: r)
      | none => none
    | some false => filterSg p t
    | none => none
  | .opt a o :: t => match p a with
    | some true => match filterSg p t with
      | some [] => some o.toList
      | some r => some (o.toList ++ r)
      | none => none
    | some false => filterSg p t
    | none => none
  | .many a xs :: t => match p a with
    | some true => match filterSg p t with
      | some [] => some xs
      | some r => some (xs ++ r)
      | none => none
    | some false => filterSg p t
    | none => none
  | .sep _ a s xs _ :: t => match p (tok s) with
    | some false => match p a with
      | some true => match filterSg p t with
        | some [] => some xs
        | some r => some (xs ++ r)
        | none => none
      | some false => filterSg p t
      | none => none
    | _ => none
  | .cond b p' s xs _ :: t =>
    match p (tok s), p (tok "("), p (tok ")"), p b, p p' with
    | some false, some false, some false, some true, some true => match filterSg p t with
        | some [] => some xs
        | some r => some (xs ++ r)
        | none => none
    | _, _, _, _, _ => none

theorem filter_all {α : Type} {q : α → Bool} {a : List α} (h : ∀ x ∈ a, q x = true) : a.filter q = a :=
  List.filter_eq_self.2 h
theorem filter_none {α : Type} {q : α → Bool} {a : List α} (h : ∀ x ∈ a, q x = false) : a.filter q = [] :=
  List.filter_eq_nil_iff.2 (fun x hx => by simp [h x hx])

theorem sep_filter {p : Atom → Option Bool} {q : Loc → Bool} (hq : Decides l p q) {a : Atom} {s : String}
    (ha : p a = some true) (hs : p (tok s) = some false) {xs vs : List Loc} (h : Sep (SatL l a) (SatL l (tok s)) xs vs) :
    vs.filter q = xs := by
  induction h with
  | one h => simp [hq _ _ _ h ha]
  | cons h h' _ ih => simp [hq _ _ _ h ha, hq _ _ _ h' hs, ih]

theorem cond_filter {p : Atom → Option Bool} {q : Loc → Bool} (hq : Decides l p q) {b c : Atom} {s : String}
    (hb : p b = some true) (hc : p c = some true) (ho : p (tok "(") = some false) (hcl : p (tok ")") = some false)
    (hs : p (tok s) = some false) {xs vs : List Loc}
    (h : CondSep (CondOp (SatL l b) (SatL l (tok "(")) (SatL l c) (SatL l (tok ")"))) (SatL l (tok s)) xs vs) :
    vs.filter q = xs := by
  have key : ∀ {x w}, CondOp (SatL l b) (SatL l (tok "(")) (SatL l c) (SatL l (tok ")")) x w → w.filter q = [x] := by
    intro x w h
    cases h with
    | bare h => simp [hq _ _ _ h hb]
    | par h1 h2 h3 => simp [hq _ _ _ h1 ho, hq _ _ _ h2 hc, hq _ _ _ h3 hcl]
  induction h with
  | one h => exact key h
  | cons h h' _ ih => rw [List.filter_append, key h, List.filter_cons, hq _ _ _ h' hs, ih]; rfl

theorem filterSg_sound {p : Atom → Option Bool} {q : Loc → Bool} (hq : Decides l p q) :
    ∀ {sgs : List (Sg Loc)} {r : List Loc}, (∀ sg ∈ sgs, sg.WF (SatL l)) → filterSg p sgs = some r →
      (locs sgs).filter q = r
  | [], r, _, h => by cases h; rfl
  | .one a x :: t, r, hw, h => by
    have hx : SatL l a x := hw (.one a x) (by simp)
    have ih := fun r => filterSg_sound (sgs := t) (r := r) hq (fun sg hsg => hw sg (by simp [hsg] : sg ∈ Sg.one a x :: t))
    rw [filterSg] at h
    simp only [locs, Sg.locs, List.cons_append, List.nil_append, List.filter_cons]
    split at h
    · rename_i ha
      split at h
      · rename_i h2; cases h; rw [hq _ _ _ hx ha, ih _ h2]; rfl
      · cases h
    · rename_i ha; rw [hq _ _ _ hx ha]; exact ih r h
    · cases h
  | .opt a o :: t, r, hw, h => by
    have hx : ∀ x, o = some x → SatL l a x := hw (.opt a o) (by simp)
    have ih := fun r => filterSg_sound (sgs := t) (r := r) hq (fun sg hsg => hw sg (by simp [hsg] : sg ∈ Sg.opt a o :: t))
    rw [filterSg] at h
    simp only [locs, Sg.locs, List.filter_append]
    have ht : ∀ b, p a = some b → ∀ x ∈ o.toList, q x = b := by
      intro b hb x hxo
      exact hq _ _ _ (hx x (by simpa using hxo)) hb
    split at h
    · rename_i ha
      rw [filter_all (ht true ha)]
      split at h
      · rename_i h2; cases h; rw [ih _ h2]; simp
      · rename_i h2; cases h; rw [ih _ h2]
      · cases h
    · rename_i ha; rw [filter_none (ht false ha)]; exact ih r h
    · cases h
  | .many a xs :: t, r, hw, h => by
    have hx : ∀ x ∈ xs, SatL l a x := hw (.many a xs) (by simp)
    have ih := fun r => filterSg_sound (sgs := t) (r := r) hq (fun sg hsg => hw sg (by simp [hsg] : sg ∈ Sg.many a xs :: t))
    rw [filterSg] at h
    simp only [locs, Sg.locs, List.filter_append]
    split at h
    · rename_i ha
      rw [filter_all (fun x hx' => hq _ _ _ (hx x hx') ha)]
      split at h
      · rename_i h2; cases h; rw [ih _ h2]; simp
      · rename_i h2; cases h; rw [ih _ h2]
      · cases h
    · rename_i ha; rw [filter_none (fun x hx' => hq _ _ _ (hx x hx') ha)]; exact ih r h
    · cases h
  | .sep ne a s xs vs :: t, r, hw, h => by
    have hx : (ne = false ∧ xs = [] ∧ vs = []) ∨ Sep (SatL l a) (SatL l (tok s)) xs vs :=
      hw (.sep ne a s xs vs) (by simp)
    have ih := fun r => filterSg_sound (sgs := t) (r := r) hq (fun sg hsg => hw sg (by simp [hsg] : sg ∈ Sg.sep ne a s xs vs :: t))
    rw [filterSg] at h
    simp only [locs, Sg.locs, List.filter_append]
    split at h
    · rename_i hs
      split at h
      · rename_i ha
        have hv : vs.filter q = xs := by
          rcases hx with ⟨_, rfl, rfl⟩ | hx
          · rfl
          · exact sep_filter hq ha hs hx
        rw [hv]
        split at h
        · rename_i h2; cases h; rw [ih _ h2]; simp
        · rename_i h2; cases h; rw [ih _ h2]
        · cases h
      · rename_i ha
        have hv : vs.filter q = [] := by
          rcases hx with ⟨_, rfl, rfl⟩ | hx
          · rfl
          · exact filter_none (sep_none hq ha hs hx)
        rw [hv]; exact ih r h
      · cases h
    · cases h
  | .cond b c s xs vs :: t, r, hw, h => by
    have hx : CondSep (CondOp (SatL l b) (SatL l (tok "(")) (SatL l c) (SatL l (tok ")"))) (SatL l (tok s)) xs vs :=
      hw (.cond b c s xs vs) (by simp)
    have ih := fun r => filterSg_sound (sgs := t) (r := r) hq (fun sg hsg => hw sg (by simp [hsg] : sg ∈ Sg.cond b c s xs vs :: t))
    rw [filterSg] at h
    simp only [locs, Sg.locs, List.filter_append]
    split at h
    · rename_i h1 h2 h3 h4 h5
      rw [cond_filter hq h4 h5 h2 h3 h1 hx]
      split at h
      · rename_i h2; cases h; rw [ih _ h2]; simp
      · rename_i h2; cases h; rw [ih _ h2]
      · cases h
    · cases h

/-! ### Accessors see the children that are no comments -/

/-- The extras among the children are comments without field names. -/
def Plain (l : Loc) : Prop := ∀ c ∈ l.children, c.node.extra = true →
  c.node.field = none ∧ (c.node.kind = "line_comment" ∨ c.node.kind = "block_comment")

theorem plain_of_sane {l : Loc} (h : sane l.kind l.node.children = true) : Plain l :=
  fun c hc he => sane_extras h c.node (mem_children_node hc) he

theorem find_view {q : Loc → Bool} (h : ∀ c ∈ l.children, c.node.extra = true → q c = false) :
    l.children.find? q = (view l).find? q := by
  unfold view
  generalize l.children = cs at h
  induction cs with
  | nil => rfl
  | cons c cs ih =>
    have ih := ih (fun x hx => h x (by simp [hx]))
    cases he : c.node.extra with
    | true =>
      rw [List.find?_cons, h c (by simp) he, List.filter_cons]
      simp [Loc.extra, he, ih]
    | false =>
      rw [List.find?_cons, List.filter_cons]
      simp [Loc.extra, he, List.find?_cons, ih]

theorem filter_view {q : Loc → Bool} (h : ∀ c ∈ l.children, c.node.extra = true → q c = false) :
    l.children.filter q = (view l).filter q := by
  unfold view
  generalize l.children = cs at h
  induction cs with
  | nil => rfl
  | cons c cs ih =>
    have ih := ih (fun x hx => h x (by simp [hx]))
    cases he : c.node.extra with
    | true =>
      rw [List.filter_cons, h c (by simp) he, List.filter_cons]
      simp [Loc.extra, he, ih]
    | false =>
      rw [List.filter_cons, List.filter_cons]
      simp only [Loc.extra, he, Bool.not_false, if_true, List.filter_cons]
      simp only [ih, Loc.extra]

theorem find_filter {α : Type} (p q : α → Bool) (l : List α) : (l.filter p).find? q = l.find? (fun x => p x && q x) := by
  induction l with
  | nil => rfl
  | cons x l ih =>
    rw [List.filter_cons]
    cases hp : p x <;> simp [List.find?_cons, hp, ih]

/-- Kinds of comments. -/
def isComment (k : String) : Bool := k == "line_comment" || k == "block_comment"

variable {sgs : List (Sg Loc)}

theorem get_tryCByN (hpl : Plain l) (hv : View l sgs) {f : String} {r : Option Loc} (h : findSg (nT f) sgs = some r) :
    l.tryCByN f = r := by
  rw [Loc.tryCByN, find_view (fun c hc he => by simp [(hpl c hc he).1]), hv.1]
  exact findSg_sound (decides_nT f) hv.2 h

theorem comment_ne {k : String} {c : Loc} (hk : isComment k = false)
    (h : c.node.kind = "line_comment" ∨ c.node.kind = "block_comment") : (c.kind == k) = false := by
  simp only [isComment, Bool.or_eq_false_iff, beq_eq_false_iff_ne] at hk
  rw [beq_eq_false_iff_ne]
  intro e
  rcases h with h | h
  · exact hk.1 (by rw [← e]; exact h)
  · exact hk.2 (by rw [← e]; exact h)

theorem get_tryCByK (hpl : Plain l) (hv : View l sgs) {k : String} {r : Option Loc} (hk : isComment k = false)
    (h : findSg (kT k) sgs = some r) : l.tryCByK k = r := by
  rw [Loc.tryCByK, Loc.namedChildren, find_filter,
    find_view (fun c hc he => by rw [comment_ne hk (hpl c hc he).2, Bool.and_false]), hv.1]
  exact findSg_sound (decides_kT k) hv.2 h

theorem get_tryCsByK (hpl : Plain l) (hv : View l sgs) {k : String} {r : List Loc} (hk : isComment k = false)
    (h : filterSg (kT k) sgs = some r) : l.tryCsByK k = r := by
  rw [Loc.tryCsByK, Loc.namedChildren, List.filter_filter,
    filter_view (fun c hc he => by rw [comment_ne hk (hpl c hc he).2, Bool.false_and]), hv.1]
  have := filterSg_sound (decides_kT k) hv.2 h
  rw [← this]
  congr 1
  funext c
  exact Bool.and_comm _ _

theorem get_byField (hpl : Plain l) (hv : View l sgs) {f : String} {r : List Loc} (h : filterSg (nT f) sgs = some r) :
    l.children.filter (fun c => c.node.field == some f) = r := by
  rw [filter_view (fun c hc he => by simp [(hpl c hc he).1]), hv.1]
  exact filterSg_sound (decides_nT f) hv.2 h

theorem get_byKind (hpl : Plain l) (hv : View l sgs) {k : String} {r : List Loc} (hk : isComment k = false)
    (h : filterSg (eT k) sgs = some r) : l.children.filter (fun c => c.kind == k) = r := by
  rw [filter_view (fun c hc he => comment_ne hk (hpl c hc he).2), hv.1]
  exact filterSg_sound (decides_eT k) hv.2 h

theorem get_findKind (hpl : Plain l) (hv : View l sgs) {k : String} {r : Option Loc} (hk : isComment k = false)
    (h : findSg (eT k) sgs = some r) : l.children.find? (fun c => c.kind == k) = r := by
  rw [find_view (fun c hc he => comment_ne hk (hpl c hc he).2), hv.1]
  exact findSg_sound (decides_eT k) hv.2 h

theorem get_findPunct (hpl : Plain l) (hv : View l sgs) {r : Option Loc}
    (h : findSg pT sgs = some r) : l.children.find? (fun c => isPunctuationKind c.kind) = r := by
  rw [find_view (fun c hc he => by
    rw [isPunct_eq, comment_ne (by decide) (hpl c hc he).2, comment_ne (by decide) (hpl c hc he).2]; rfl), hv.1]
  exact findSg_sound decides_pT hv.2 h

theorem get_childrenVec (hv : View l sgs) {r : List Loc} (h : filterSg mT sgs = some r) : l.childrenVec = r := by
  rw [Loc.childrenVec, Loc.namedChildren, List.filter_filter]
  have := filterSg_sound decides_mT hv.2 h
  rw [← hv.1, view, List.filter_filter] at this
  rw [← this]
  congr 1
  funext c
  exact Bool.and_comm _ _

theorem get_tryFirstC (hv : View l sgs) {r : Option Loc} (h : findSg mT sgs = some r) : l.tryFirstC = r := by
  rw [Loc.tryFirstC, Loc.namedChildren, find_filter]
  have := findSg_sound decides_mT hv.2 h
  rw [← hv.1, view, find_filter] at this
  rw [← this]
  congr 1
  funext c
  exact Bool.and_comm _ _

end

/-! ### Content of the children, with punctuation -/

/-- Comments and punctuation after the node are printed with it. -/
def absorbs (x : Loc) : Bool := x.node.named || x.kind == "else"

/-- Content of an element: with the following punctuation if the element prints it. -/
def fc (cm : CMap) (x : Loc) : Cont := if x.node.named then full cm x else cont cm x.node

/-- Content of children, punctuation being counted with the element before. -/
def regroup (cm : CMap) : Bool → List Loc → Cont
  | _, [] => []
  | b, x :: r =>
    if isPunctuationKind x.kind then (if b then regroup cm false r else cont cm x.node ++ regroup cm false r)
    else if absorbs x then full cm x ++ regroup cm true r
    else cont cm x.node ++ regroup cm false r

theorem regroup_eq (cm : CMap) : ∀ vs, Nexts vs → (vs.flatMap (fun x => cont cm x.node) = regroup cm false vs) ∧
    (vs.flatMap (fun x => cont cm x.node) = (match vs with
      | [] => []
      | s :: _ => if isPunctuationKind s.kind then cont cm s.node else []) ++ regroup cm true vs)
  | [], _ => ⟨rfl, rfl⟩
  | x :: r, h => by
    obtain ⟨ih1, ih2⟩ := regroup_eq cm r h.2
    rw [List.flatMap_cons]
    cases hp : isPunctuationKind x.kind with
    | true =>
      simp only [regroup, hp, if_true, Bool.false_eq_true, if_false]
      exact ⟨by rw [← ih1], by rw [← ih1]⟩
    | false =>
      simp only [regroup, hp, Bool.false_eq_true, if_false, List.nil_append, and_self]
      split
      · rw [full, List.append_assoc]
        congr 1
        rw [ih2]
        congr 1
        rw [pcont, h.1]
        cases r <;> rfl
      · rw [← ih1]

theorem inner_regroup (cm : CMap) (l : Loc) (h : bodyKinds.contains l.kind = false) :
    inner cm l = regroup cm false (view l) := by
  rw [inner_eq cm l h]; exact (regroup_eq cm _ (view_nexts l)).1

/-- Atom that no punctuation matches. -/
def noPunct (a : Atom) : Bool := a.kinds.all (fun k => !isPunctuationKind k)

/-- Atom all matches of which print the following punctuation. -/
def absAtom (a : Atom) : Bool := noPunct a && (a.named || (!a.kinds.isEmpty && a.kinds.all (· == "else")))

/-- Atom no match of which prints the following punctuation. -/
def rawAtom (a : Atom) : Bool := noPunct a && !a.named && a.kinds.all (· != "else")

/-- Atom only punctuation matches. -/
def punctAtom (a : Atom) : Bool := !a.kinds.isEmpty && a.kinds.all isPunctuationKind

/-- Content of segments, if the atoms determine it; the flag says whether the previous element has printed the
punctuation (`none`: not known). -/
def fullL (cm : CMap) (st : Option Bool) (sgs : List (Sg Loc)) : Option Cont :=
  match sgs with
  | [] => some []
  | .one a x :: t =>
    if absAtom a then match fullL cm (some true) t with
      | some k => some (full cm x ++ k)
      | none => none
    else if rawAtom a then match fullL cm (some false) t with
      | some k => some (cont cm x.node ++ k)
      | none => none
    else if punctAtom a then match st with
      | some true => fullL cm (some false) t
      | some false => match fullL cm (some false) t with
        | some k => some (cont cm x.node ++ k)
        | none => none
      | none => none
    else none
  | .opt a o :: t =>
    if absAtom a then match fullL cm (if st = some true then some true else none) t with
      | some k => some (ofull cm o ++ k)
      | none => none
    else none
  | .many a xs :: t =>
    if absAtom a then match fullL cm (if st = some true then some true else none) t with
      | some k => some (xs.flatMap (full cm) ++ k)
      | none => none
    else none
  | .sep ne a s xs vs :: t =>
    if absAtom a && a.named then
      if isPunctuationKind s then
        match fullL cm (if ne then some true else if st = some true then some true else none) t with
        | some k => some (xs.flatMap (full cm) ++ k)
        | none => none
      else if s != "else" then
        match fullL cm (if ne then some true else if st = some true then some true else none) t with
        | some k => some (vs.flatMap (fc cm) ++ k)
        | none => none
      else none
    else none
  | .cond b p s _ vs :: t =>
    if absAtom b && b.named && absAtom p && p.named && !isPunctuationKind s && s != "else" then
      match fullL cm none t with
      | some k => some (vs.flatMap (fc cm) ++ k)
      | none => none
    else none

section
variable {cm : CMap} {l : Loc}

theorem noPunct_sat {a : Atom} {x : Loc} (h : SatL l a x) (ha : noPunct a = true) : isPunctuationKind x.kind = false := by
  simp only [noPunct, List.all_eq_true, Bool.not_eq_true'] at ha
  exact ha _ h.fits.2.2.1

theorem absAtom_sat {a : Atom} {x : Loc} (h : SatL l a x) (ha : absAtom a = true) :
    isPunctuationKind x.kind = false ∧ absorbs x = true := by
  simp only [absAtom, Bool.and_eq_true, Bool.or_eq_true] at ha
  refine ⟨noPunct_sat h ha.1, ?_⟩
  rcases ha.2 with hn | hn
  · simp [absorbs, h.fits.1, hn]
  · simp only [List.all_eq_true, beq_iff_eq] at hn
    have := hn.2 _ h.fits.2.2.1
    have e : x.kind = "else" := this
    simp [absorbs, e]

theorem rawAtom_sat {a : Atom} {x : Loc} (h : SatL l a x) (ha : rawAtom a = true) :
    isPunctuationKind x.kind = false ∧ absorbs x = false := by
  simp only [rawAtom, Bool.and_eq_true, Bool.not_eq_true'] at ha
  refine ⟨noPunct_sat h ha.1.1, ?_⟩
  have := ha.2
  simp only [List.all_eq_true, bne_iff_ne] at this
  have e : x.kind ≠ "else" := this _ h.fits.2.2.1
  simp [absorbs, h.fits.1, ha.1.2, e]

theorem punctAtom_sat {a : Atom} {x : Loc} (h : SatL l a x) (ha : punctAtom a = true) : isPunctuationKind x.kind = true := by
  simp only [punctAtom, Bool.and_eq_true, List.all_eq_true] at ha
  exact ha.2 _ h.fits.2.2.1

theorem regroup_abs {a : Atom} {x : Loc} (h : SatL l a x) (ha : absAtom a = true) (b : Bool) (r : List Loc) :
    regroup cm b (x :: r) = full cm x ++ regroup cm true r := by
  obtain ⟨h1, h2⟩ := absAtom_sat h ha
  simp [regroup, h1, h2]

theorem regroup_raw {a : Atom} {x : Loc} (h : SatL l a x) (ha : rawAtom a = true) (b : Bool) (r : List Loc) :
    regroup cm b (x :: r) = cont cm x.node ++ regroup cm false r := by
  obtain ⟨h1, h2⟩ := rawAtom_sat h ha
  simp [regroup, h1, h2]

theorem regroup_many {a : Atom} (ha : absAtom a = true) : ∀ {xs : List Loc}, (∀ x ∈ xs, SatL l a x) → ∀ (b : Bool) (r : List Loc),
    ∃ b', (b = true → b' = true) ∧ (xs ≠ [] → b' = true) ∧
    regroup cm b (xs ++ r) = xs.flatMap (full cm) ++ regroup cm b' r
  | [], _, b, r => ⟨b, id, by simp, rfl⟩
  | x :: xs, h, b, r => by
    obtain ⟨b', h1, h2, h3⟩ := regroup_many ha (xs := xs) (fun y hy => h y (by simp [hy])) true r
    refine ⟨b', fun _ => h1 rfl, fun _ => h1 rfl, ?_⟩
    rw [List.cons_append, regroup_abs (h x (by simp)) ha, h3, List.flatMap_cons, List.append_assoc]

theorem regroup_sep {a : Atom} {s : String} (ha : absAtom a = true) (hs : isPunctuationKind s = true) {xs vs : List Loc}
    (h : Sep (SatL l a) (SatL l (tok s)) xs vs) : ∀ (b : Bool) (r : List Loc),
    regroup cm b (vs ++ r) = xs.flatMap (full cm) ++ regroup cm true r := by
  have hp : punctAtom (tok s) = true := by simp [punctAtom, tok, hs]
  induction h with
  | one h => intro b r; simp [regroup_abs h ha]
  | cons h h' _ ih =>
    intro b r
    rw [List.cons_append, List.cons_append, regroup_abs h ha, List.flatMap_cons, List.append_assoc, ← ih false r]
    congr 1
    rw [regroup, punctAtom_sat h' hp]
    rfl

theorem rawTok {s : String} (hs : isPunctuationKind s = false) (he : (s != "else") = true) : rawAtom (tok s) = true := by
  simp [rawAtom, noPunct, tok, hs]
  simpa using he

theorem fc_named {a : Atom} {x : Loc} (h : SatL l a x) (hn : a.named = true) : fc cm x = full cm x := by
  simp [fc, h.fits.1, hn]
theorem fc_tok {s : String} {x : Loc} (h : SatL l (tok s) x) : fc cm x = cont cm x.node := by
  have : x.node.named = false := h.fits.1
  simp [fc, this]

theorem regroup_sep' {a : Atom} {s : String} (ha : absAtom a = true) (hn : a.named = true)
    (hs : isPunctuationKind s = false) (he : (s != "else") = true) {xs vs : List Loc}
    (h : Sep (SatL l a) (SatL l (tok s)) xs vs) : ∀ (b : Bool) (r : List Loc),
    regroup cm b (vs ++ r) = vs.flatMap (fc cm) ++ regroup cm true r := by
  induction h with
  | one h => intro b r; simp [regroup_abs h ha, fc_named h hn]
  | cons h h' _ ih =>
    intro b r
    rw [List.cons_append, List.cons_append, regroup_abs h ha, List.flatMap_cons, List.append_assoc, fc_named h hn,
      List.flatMap_cons, fc_tok h', List.append_assoc, ← ih false r, regroup_raw h' (rawTok hs he)]

theorem regroup_cond {a c : Atom} {s : String} (ha : absAtom a = true) (hn : a.named = true) (hc : absAtom c = true)
    (hnc : c.named = true)
    (hs : isPunctuationKind s = false) (he : (s != "else") = true) {xs vs : List Loc}
    (h : CondSep (CondOp (SatL l a) (SatL l (tok "(")) (SatL l c) (SatL l (tok ")"))) (SatL l (tok s)) xs vs) :
    ∀ (b : Bool) (r : List Loc), ∃ b', regroup cm b (vs ++ r) = vs.flatMap (fc cm) ++ regroup cm b' r := by
  have key : ∀ {x w}, CondOp (SatL l a) (SatL l (tok "(")) (SatL l c) (SatL l (tok ")")) x w → ∀ (b : Bool) (r : List Loc),
      ∃ b', regroup cm b (w ++ r) = w.flatMap (fc cm) ++ regroup cm b' r := by
    intro x w h b r
    cases h with
    | bare h => exact ⟨true, by simp [regroup_abs h ha, fc_named h hn]⟩
    | par h1 h2 h3 =>
      refine ⟨false, ?_⟩
      simp only [List.cons_append, List.nil_append, List.flatMap_cons, List.flatMap_nil, List.append_nil, List.append_assoc,
        regroup_raw h1 (rawTok (by decide) (by decide)), regroup_raw h3 (rawTok (by decide) (by decide)),
        regroup_abs h2 hc, fc_named h2 hnc, fc_tok h1, fc_tok h3]
  induction h with
  | one h => exact key h
  | @cons x w t xs vs h h' _ ih =>
    intro b r
    obtain ⟨b1, e1⟩ := key h b (t :: vs ++ r)
    obtain ⟨b2, e2⟩ := ih false r
    refine ⟨b2, ?_⟩
    rw [List.append_assoc, e1, List.cons_append, regroup_raw h' (rawTok hs he), e2, List.flatMap_append,
      List.flatMap_cons, fc_tok h']
    simp only [List.append_assoc]

theorem fullL_sound : ∀ {sgs : List (Sg Loc)} {st : Option Bool} {k : Cont}, (∀ sg ∈ sgs, sg.WF (SatL l)) →
    fullL cm st sgs = some k → ∀ b, (∀ b', st = some b' → b' = b) → regroup cm b (locs sgs) = k
  | [], st, k, _, h, b, _ => by
    rw [fullL.eq_def] at h; cases h; rfl
  | .one a x :: t, st, k, hw, h, b, hb => by
    have hx : SatL l a x := hw (.one a x) (by simp)
    have ih := fun st k => fullL_sound (sgs := t) (st := st) (k := k) (fun sg hsg => hw sg (by simp [hsg] : sg ∈ Sg.one a x :: t))
    rw [fullL.eq_def] at h
    dsimp only at h
    simp only [locs, Sg.locs, List.cons_append, List.nil_append]
    split at h
    · rename_i ha
      split at h
      · rename_i h2; cases h
        rw [regroup_abs hx ha, ih _ _ h2 true (by simp)]
      · cases h
    · split at h
      · rename_i ha
        split at h
        · rename_i h2; cases h
          rw [regroup_raw hx ha, ih _ _ h2 false (by simp)]
        · cases h
      · split at h
        · rename_i ha
          have hp := punctAtom_sat hx ha
          split at h
          · have hb := hb true rfl
            subst hb
            rw [regroup, hp, if_pos rfl, if_pos rfl]
            exact ih _ _ h false (by simp)
          · have hb := hb false rfl
            subst hb
            rw [regroup, hp, if_pos rfl, if_neg (by simp)]
            split at h
            · rename_i h2; cases h
              rw [ih _ _ h2 false (by simp)]
            · cases h
          · cases h
        · cases h
  | .opt a o :: t, st, k, hw, h, b, hb => by
    have hx : ∀ x, o = some x → SatL l a x := hw (.opt a o) (by simp)
    have ih := fun st k => fullL_sound (sgs := t) (st := st) (k := k) (fun sg hsg => hw sg (by simp [hsg] : sg ∈ Sg.opt a o :: t))
    rw [fullL.eq_def] at h
    dsimp only at h
    simp only [locs, Sg.locs]
    split at h
    · rename_i ha
      split at h
      · rename_i h2; cases h
        cases o with
        | none =>
          simp only [Option.toList, List.nil_append, ofull]
          refine ih _ _ h2 b ?_
          intro b' hb'
          split at hb'
          · rename_i hst; exact hb b' (by rw [hst]; exact hb')
          · cases hb'
        | some x =>
          simp only [Option.toList, List.cons_append, List.nil_append, ofull]
          rw [regroup_abs (hx x rfl) ha, ih _ _ h2 true]
          intro b' hb'
          split at hb' <;> cases hb'; rfl
      · cases h
    · cases h
  | .many a xs :: t, st, k, hw, h, b, hb => by
    have hx : ∀ x ∈ xs, SatL l a x := hw (.many a xs) (by simp)
    have ih := fun st k => fullL_sound (sgs := t) (st := st) (k := k) (fun sg hsg => hw sg (by simp [hsg] : sg ∈ Sg.many a xs :: t))
    rw [fullL.eq_def] at h
    dsimp only at h
    simp only [locs, Sg.locs]
    split at h
    · rename_i ha
      split at h
      · rename_i h2; cases h
        obtain ⟨b', h3, h4, h5⟩ := regroup_many (cm := cm) ha hx b (locs t)
        rw [h5, ih _ _ h2 b']
        intro b'' hb''
        split at hb''
        · rename_i hst
          cases hb''
          exact (h3 (hb true hst).symm).symm
        · cases hb''
      · cases h
    · cases h
  | .sep ne a s xs vs :: t, st, k, hw, h, b, hb => by
    have hx : (ne = false ∧ xs = [] ∧ vs = []) ∨ Sep (SatL l a) (SatL l (tok s)) xs vs :=
      hw (.sep ne a s xs vs) (by simp)
    have ih := fun st k => fullL_sound (sgs := t) (st := st) (k := k) (fun sg hsg => hw sg (by simp [hsg] : sg ∈ Sg.sep ne a s xs vs :: t))
    have hst : ∀ b'', (if ne = true then some true else if st = some true then some true else none) = some b'' → b'' = true := by
      intro b'' h
      split at h
      · cases h; rfl
      · split at h <;> cases h; rfl
    have hst' : ne = false → ∀ b'', (if ne = true then some true else if st = some true then some true else none) = some b'' →
        b'' = b := by
      intro hne b'' h
      rw [hne, if_neg (by simp)] at h
      split at h
      · rename_i h'; cases h; exact hb true h'
      · cases h
    rw [fullL.eq_def] at h
    dsimp only at h
    simp only [locs, Sg.locs]
    split at h
    · rename_i ha
      simp only [Bool.and_eq_true] at ha
      split at h
      · rename_i hs
        split at h
        · rename_i h2; cases h
          rcases hx with ⟨hne, rfl, rfl⟩ | hx
          · simp only [List.nil_append, List.flatMap_nil]
            exact ih _ _ h2 b (hst' hne)
          · rw [regroup_sep ha.1 hs hx, ih _ _ h2 true hst]
        · cases h
      · rename_i hs
        split at h
        · rename_i he
          split at h
          · rename_i h2; cases h
            rcases hx with ⟨hne, rfl, rfl⟩ | hx
            · simp only [List.nil_append, List.flatMap_nil]
              exact ih _ _ h2 b (hst' hne)
            · rw [regroup_sep' ha.1 ha.2 (by simpa using hs) he hx, ih _ _ h2 true hst]
          · cases h
        · cases h
    · cases h
  | .cond c p s xs vs :: t, st, k, hw, h, b, hb => by
    have hx : CondSep (CondOp (SatL l c) (SatL l (tok "(")) (SatL l p) (SatL l (tok ")"))) (SatL l (tok s)) xs vs :=
      hw (.cond c p s xs vs) (by simp)
    have ih := fun st k => fullL_sound (sgs := t) (st := st) (k := k) (fun sg hsg => hw sg (by simp [hsg] : sg ∈ Sg.cond c p s xs vs :: t))
    rw [fullL.eq_def] at h
    dsimp only at h
    simp only [locs, Sg.locs]
    split at h
    · rename_i ha
      simp only [Bool.and_eq_true, Bool.not_eq_true'] at ha
      split at h
      · rename_i h2; cases h
        obtain ⟨b', h3⟩ := regroup_cond (cm := cm) ha.1.1.1.1.1 ha.1.1.1.1.2 ha.1.1.1.2 ha.1.1.2 ha.1.2 ha.2 hx b (locs t)
        rw [h3, ih _ _ h2 b' (by simp)]
      · cases h
    · cases h

/-- Content of segments of a node of the kind that is no body. -/
def fullB (cm : CMap) (kind : String) (sgs : List (Sg Loc)) : Option Cont :=
  bif bodyKinds.contains kind then none else fullL cm (some false) sgs

/-- Content of the children of a node. -/
theorem inner_full {sgs : List (Sg Loc)} (hv : View l sgs) {k : Cont} (h : fullB cm l.kind sgs = some k) :
    inner cm l = k := by
  unfold fullB at h
  cases hb : bodyKinds.contains l.kind with
  | true => rw [hb] at h; cases h
  | false =>
    rw [hb] at h
    rw [inner_regroup cm l hb, hv.1]
    exact fullL_sound hv.2 h false (by simp)

end

end Afmt.Gram
