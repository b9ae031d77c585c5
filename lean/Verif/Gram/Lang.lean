import Verif.Gram.Grammar

/-!
# Languages of productions

`conf` matches the children of a node with derivatives.  Here: if it succeeds the children decompose as the production
says.
-/

namespace Afmt.Gram

section
variable {α : Type} (sat : Atom → α → Prop)

/-- Words of a regular expression, letters being matched by `sat`. -/
def Lang : Rx → List α → Prop
  | .none, _ => False
  | .eps, w => w = []
  | .atom a, w => ∃ x, w = [x] ∧ sat a x
  | .seq r s, w => ∃ u v, w = u ++ v ∧ Lang r u ∧ Lang s v
  | .alt r s, w => Lang r w ∨ Lang s w
  | .star r, w => ∃ ws : List (List α), w = ws.flatten ∧ ∀ u ∈ ws, Lang r u

theorem lang_nullable {r : Rx} (h : r.nullable = true) : Lang sat r [] := by
  induction r with
  | none => cases h
  | eps => rfl
  | atom a => cases h
  | seq r s ih1 ih2 =>
    simp only [Rx.nullable, Bool.and_eq_true] at h
    exact ⟨[], [], rfl, ih1 h.1, ih2 h.2⟩
  | alt r s ih1 ih2 =>
    simp only [Rx.nullable, Bool.or_eq_true] at h
    rcases h with h | h
    · exact Or.inl (ih1 h)
    · exact Or.inr (ih2 h)
  | star r _ => exact ⟨[], rfl, by simp⟩

theorem lang_der {r : Rx} {a : Atom} {x : α} (hx : sat a x) : ∀ {w : List α}, Lang sat (r.der a) w →
    Lang sat r (x :: w) := by
  induction r with
  | none => intro w h; cases h
  | eps => intro w h; cases h
  | atom b =>
    intro w h
    simp only [Rx.der] at h
    split at h
    · rename_i e; subst e
      simp only [Lang] at h; subst h
      exact ⟨x, rfl, hx⟩
    · cases h
  | seq r s ih1 ih2 =>
    intro w h
    simp only [Rx.der] at h
    have h1 : ∀ w, Lang sat (.seq (r.der a) s) w → Lang sat (.seq r s) (x :: w) := by
      rintro w ⟨u, v, rfl, hu, hv⟩
      exact ⟨x :: u, v, rfl, ih1 hu, hv⟩
    split at h
    · rename_i hn
      rcases h with h | h
      · exact h1 w h
      · exact ⟨[], x :: w, rfl, lang_nullable sat hn, ih2 h⟩
    · exact h1 w h
  | alt r s ih1 ih2 =>
    intro w h
    rcases h with h | h
    · exact Or.inl (ih1 h)
    · exact Or.inr (ih2 h)
  | star r ih =>
    rintro w ⟨u, v, rfl, hu, ws, rfl, hws⟩
    refine ⟨(x :: u) :: ws, rfl, ?_⟩
    intro y hy
    rcases List.mem_cons.1 hy with rfl | hy
    · exact ih hu
    · exact hws y hy

/-- Words of mapped letters. -/
theorem lang_map {β : Type} (f : β → α) {r : Rx} : ∀ {w : List β}, Lang sat r (w.map f) →
    Lang (fun a x => sat a (f x)) r w := by
  induction r with
  | none => intro w h; cases h
  | eps => intro w h; simpa [Lang] using h
  | atom a =>
    rintro w ⟨x, hw, hx⟩
    match w, hw with
    | [y], hw =>
      simp only [List.map_cons, List.map_nil, List.cons.injEq, and_true] at hw
      subst hw
      exact ⟨y, rfl, hx⟩
  | seq r s ih1 ih2 =>
    rintro w ⟨u, v, hw, hu, hv⟩
    obtain ⟨u', v', rfl, rfl, rfl⟩ := List.map_eq_append_iff.1 hw
    exact ⟨u', v', rfl, ih1 hu, ih2 hv⟩
  | alt r s ih1 ih2 =>
    intro w h
    rcases h with h | h
    · exact Or.inl (ih1 h)
    · exact Or.inr (ih2 h)
  | star r ih =>
    rintro w ⟨ws, hw, hws⟩
    suffices H : ∀ (ws : List (List α)) (w : List β), w.map f = ws.flatten → (∀ u ∈ ws, Lang sat r u) →
        ∃ vs : List (List β), w = vs.flatten ∧ ∀ u ∈ vs, Lang (fun a x => sat a (f x)) r u from H ws w hw hws
    intro ws
    induction ws with
    | nil => intro w hw _; exact ⟨[], by simpa using hw, by simp⟩
    | cons a ws ih' =>
      intro w hw hws
      obtain ⟨u', v', rfl, rfl, h2⟩ := List.map_eq_append_iff.1 hw
      obtain ⟨vs, rfl, hvs⟩ := ih' v' h2 (fun u hu => hws u (by simp [hu]))
      refine ⟨u' :: vs, rfl, ?_⟩
      intro y hy
      rcases List.mem_cons.1 hy with rfl | hy
      · exact ih (hws _ (by simp))
      · exact hvs y hy

/-- The letters of a word are letters of a longer word. -/
theorem lang_mem {r : Rx} {z : List α} : ∀ {w : List α}, Lang sat r w → (∀ x ∈ w, x ∈ z) →
    Lang (fun a x => sat a x ∧ x ∈ z) r w := by
  induction r with
  | none => intro w h; cases h
  | eps => intro w h _; exact h
  | atom a => rintro w ⟨x, rfl, hx⟩ hz; exact ⟨x, rfl, hx, hz x (by simp)⟩
  | seq r s ih1 ih2 =>
    rintro w ⟨u, v, rfl, hu, hv⟩ hz
    exact ⟨u, v, rfl, ih1 hu (fun x hx => hz x (by simp [hx])), ih2 hv (fun x hx => hz x (by simp [hx]))⟩
  | alt r s ih1 ih2 =>
    intro w h hz
    rcases h with h | h
    · exact Or.inl (ih1 h hz)
    · exact Or.inr (ih2 h hz)
  | star r ih =>
    rintro w ⟨ws, rfl, hws⟩ hz
    exact ⟨ws, rfl, fun u hu => ih (hws u hu) (fun x hx => hz x (List.mem_flatten.2 ⟨u, hu, hx⟩))⟩

end

/-- A node matches an atom. -/
def Sat (a : Atom) (n : Node) : Prop := a.fits n = true ∧ ∀ nt, a.nt = some nt → conf n nt = true

theorem confs_sound (ns : List Node) : ∀ r : Rx, confs ns r = true → Lang Sat r (ns.filter (fun n => !n.extra)) := by
  induction ns with
  | nil => intro r h; rw [confs] at h; exact lang_nullable Sat h
  | cons c cs ih =>
    intro r h
    rw [confs] at h
    cases he : c.extra with
    | true =>
      simp only [he, if_true] at h
      simpa [he] using ih r h
    | false =>
      simp only [he, Bool.false_eq_true, if_false, List.any_eq_true, Bool.and_eq_true] at h
      obtain ⟨a, _, ⟨h1, h2⟩, h3⟩ := h
      have hs : Sat a c := ⟨h1, by intro nt hnt; simpa [hnt] using h2⟩
      have := lang_der Sat hs (ih _ h3)
      simpa [he] using this

/-! ### Decomposition into segments -/

/-- Elements and separators alternate. -/
inductive Sep {α : Type} (a s : α → Prop) : List α → List α → Prop
  | one {x} : a x → Sep a s [x] [x]
  | cons {x t xs vs} : a x → s t → Sep a s xs vs → Sep a s (x :: xs) (x :: t :: vs)

theorem Sep.ne {α : Type} {a s : α → Prop} {xs vs : List α} (h : Sep a s xs vs) : xs ≠ [] := by
  cases h <;> simp

theorem Sep.all {α : Type} {a s : α → Prop} {xs vs : List α} (h : Sep a s xs vs) : ∀ x ∈ xs, a x := by
  induction h with
  | one h => simpa using h
  | cons h _ _ ih =>
    intro y hy
    rcases List.mem_cons.1 hy with rfl | hy
    · exact h
    · exact ih y hy

/-- Operands of a condition: bare or in parentheses. -/
inductive CondOp {α : Type} (b o p c : α → Prop) : α → List α → Prop
  | bare {x} : b x → CondOp b o p c x [x]
  | par {l x r} : o l → p x → c r → CondOp b o p c x [l, x, r]

/-- Operands with separators. -/
inductive CondSep {α : Type} (op : α → List α → Prop) (s : α → Prop) : List α → List α → Prop
  | one {x w} : op x w → CondSep op s [x] w
  | cons {x w t xs vs} : op x w → s t → CondSep op s xs vs → CondSep op s (x :: xs) (w ++ t :: vs)

/-- Segments of the children of a node. -/
inductive Sg (α : Type) where
  | one (a : Atom) (x : α)
  | opt (a : Atom) (o : Option α)
  | many (a : Atom) (xs : List α)
  | sep (ne : Bool) (a : Atom) (s : String) (xs vs : List α)
  | cond (b p : Atom) (s : String) (xs vs : List α)

/-- Elements of a segment. -/
def Sg.locs {α : Type} : Sg α → List α
  | .one _ x => [x]
  | .opt _ o => o.toList
  | .many _ xs => xs
  | .sep _ _ _ _ vs => vs
  | .cond _ _ _ _ vs => vs

/-- Elements of segments. -/
def locs {α : Type} : List (Sg α) → List α
  | [] => []
  | s :: ss => s.locs ++ locs ss

section
variable {α : Type} (sat : Atom → α → Prop)

/-- The segment is as its atoms say. -/
def Sg.WF : Sg α → Prop
  | .one a x => sat a x
  | .opt a o => ∀ x, o = some x → sat a x
  | .many a xs => ∀ x ∈ xs, sat a x
  | .sep ne a s xs vs => (ne = false ∧ xs = [] ∧ vs = []) ∨ Sep (sat a) (sat (tok s)) xs vs
  | .cond b p s xs vs => CondSep (CondOp (sat b) (sat (tok "(")) (sat p) (sat (tok ")"))) (sat (tok s)) xs vs

/-- There are segments according to a production for which `P` holds. -/
def Ex : List Spec → (List (Sg α) → Prop) → Prop
  | [], P => P []
  | .one a :: ss, P => ∃ x, sat a x ∧ Ex ss fun t => P (.one a x :: t)
  | .opt a :: ss, P => ∃ o : Option α, (∀ x, o = some x → sat a x) ∧ Ex ss fun t => P (.opt a o :: t)
  | .many a :: ss, P => ∃ xs : List α, (∀ x ∈ xs, sat a x) ∧ Ex ss fun t => P (.many a xs :: t)
  | .sep1 a s :: ss, P => ∃ xs vs, Sep (sat a) (sat (tok s)) xs vs ∧ Ex ss fun t => P (.sep true a s xs vs :: t)
  | .sep0 a s :: ss, P => ∃ xs vs : List α, ((xs = [] ∧ vs = []) ∨ Sep (sat a) (sat (tok s)) xs vs) ∧
      Ex ss fun t => P (.sep false a s xs vs :: t)
  | .cond b p s :: ss, P => ∃ xs vs,
      CondSep (CondOp (sat b) (sat (tok "(")) (sat p) (sat (tok ")"))) (sat (tok s)) xs vs ∧
      Ex ss fun t => P (.cond b p s xs vs :: t)

variable {sat}

theorem lang_atom_star {a : Atom} {w : List α} (h : Lang sat (.star (.atom a)) w) : ∀ x ∈ w, sat a x := by
  obtain ⟨ws, rfl, h⟩ := h
  intro x hx
  obtain ⟨u, hu, hxu⟩ := List.mem_flatten.1 hx
  obtain ⟨y, rfl, hy⟩ := h u hu
  simp only [List.mem_cons, List.not_mem_nil, or_false] at hxu
  subst hxu; exact hy

theorem lang_sep {a : Atom} {s : String} {w : List α}
    (h : Lang sat (.seq (.atom a) (.star (.seq (.atom (tok s)) (.atom a)))) w) :
    ∃ xs, Sep (sat a) (sat (tok s)) xs w := by
  obtain ⟨_, _, rfl, ⟨x, rfl, hx⟩, ws, rfl, h⟩ := h
  induction ws generalizing x with
  | nil => exact ⟨[x], by simpa using Sep.one hx⟩
  | cons u ws ih =>
    obtain ⟨_, _, rfl, ⟨t, rfl, ht⟩, y, rfl, hy⟩ := h u (by simp)
    obtain ⟨xs, hxs⟩ := ih y hy (fun v hv => h v (by simp [hv]))
    exact ⟨x :: xs, by simpa using Sep.cons hx ht hxs⟩

theorem lang_operand {b p : Atom} {w : List α} (h : Lang sat (condOperand b p) w) :
    ∃ x, CondOp (sat b) (sat (tok "(")) (sat p) (sat (tok ")")) x w := by
  rcases h with ⟨x, rfl, hx⟩ | ⟨_, _, rfl, ⟨l, rfl, hl⟩, _, _, rfl, ⟨x, rfl, hx⟩, r, rfl, hr⟩
  · exact ⟨x, .bare hx⟩
  · exact ⟨x, .par hl hx hr⟩

theorem lang_cond {b p : Atom} {s : String} {w : List α}
    (h : Lang sat (.seq (condOperand b p) (.star (.seq (.atom (tok s)) (condOperand b p)))) w) :
    ∃ xs, CondSep (CondOp (sat b) (sat (tok "(")) (sat p) (sat (tok ")"))) (sat (tok s)) xs w := by
  obtain ⟨u, _, rfl, hu, ws, rfl, h⟩ := h
  induction ws generalizing u with
  | nil =>
    obtain ⟨x, hx⟩ := lang_operand hu
    exact ⟨[x], by simpa using CondSep.one hx⟩
  | cons v ws ih =>
    obtain ⟨_, v', rfl, ⟨t, rfl, ht⟩, hv'⟩ := h v (by simp)
    obtain ⟨x, hx⟩ := lang_operand hu
    obtain ⟨xs, hxs⟩ := ih v' hv' (fun v hv => h v (by simp [hv]))
    exact ⟨x :: xs, by simpa using CondSep.cons hx ht hxs⟩

theorem lang_ex {ss : List Spec} : ∀ {w : List α} (P : List (Sg α) → Prop), Lang sat (rxSeq ss) w →
    (∀ sgs, w = locs sgs → (∀ sg ∈ sgs, sg.WF sat) → P sgs) → Ex sat ss P := by
  induction ss with
  | nil => intro w P h hP; exact hP [] (by simpa [Lang, rxSeq, locs] using h) (by simp)
  | cons s ss ih =>
    rintro w P ⟨u, v, rfl, hu, hv⟩ hP
    have key : ∀ sg : Sg α, u = sg.locs → sg.WF sat → Ex sat ss fun t => P (sg :: t) := by
      intro sg hsg hwf
      refine ih _ hv ?_
      intro sgs e hs
      refine hP (sg :: sgs) (by simp [locs, hsg, e]) ?_
      intro y hy
      rcases List.mem_cons.1 hy with rfl | hy
      · exact hwf
      · exact hs y hy
    cases s with
    | one a =>
      obtain ⟨x, rfl, hx⟩ := hu
      exact ⟨x, hx, key (.one a x) rfl hx⟩
    | opt a =>
      rcases hu with ⟨x, rfl, hx⟩ | hu
      · have : ∀ y, some x = some y → sat a y := by rintro y ⟨⟩; exact hx
        exact ⟨some x, this, key (.opt a (some x)) rfl this⟩
      · simp only [Lang] at hu
        subst hu
        exact ⟨none, by simp, key (.opt a none) rfl (by simp [Sg.WF])⟩
    | many a =>
      have := lang_atom_star hu
      exact ⟨u, this, key (.many a u) rfl this⟩
    | sep1 a t =>
      obtain ⟨xs, h⟩ := lang_sep hu
      exact ⟨xs, u, h, key (.sep true a t xs u) rfl (Or.inr h)⟩
    | sep0 a t =>
      rcases hu with hu | hu
      · obtain ⟨xs, h⟩ := lang_sep hu
        exact ⟨xs, u, Or.inr h, key (.sep false a t xs u) rfl (Or.inr h)⟩
      · simp only [Lang] at hu
        subst hu
        exact ⟨[], [], Or.inl ⟨rfl, rfl⟩, key (.sep false a t [] []) rfl (Or.inl ⟨rfl, rfl, rfl⟩)⟩
    | cond b p t =>
      obtain ⟨xs, h⟩ := lang_cond hu
      exact ⟨xs, u, h, key (.cond b p t xs u) rfl h⟩

theorem lang_alts {ps : List (List Spec)} {w : List α} (h : Lang sat (rxAlts ps) w) :
    ∃ p ∈ ps, Lang sat (rxSeq p) w := by
  induction ps with
  | nil => cases h
  | cons p ps ih =>
    rcases h with h | h
    · exact ⟨p, by simp, h⟩
    · obtain ⟨q, hq, h⟩ := ih h
      exact ⟨q, by simp [hq], h⟩

/-- One of the productions holds. -/
def ExAlts (sat : Atom → α → Prop) : List (List Spec) → (List (Sg α) → Prop) → Prop
  | [], _ => False
  | [p], P => Ex sat p P
  | p :: ps, P => Ex sat p P ∨ ExAlts sat ps P

theorem exAlts_of {ps : List (List Spec)} {P : List (Sg α) → Prop} {p : List Spec} (hp : p ∈ ps) (h : Ex sat p P) :
    ExAlts sat ps P := by
  induction ps with
  | nil => cases hp
  | cons q ps ih =>
    cases ps with
    | nil =>
      simp only [List.mem_cons, List.not_mem_nil, or_false] at hp
      subst hp; exact h
    | cons q' ps =>
      rcases List.mem_cons.1 hp with rfl | hp
      · exact Or.inl h
      · exact Or.inr (ih hp)

end

end Afmt.Gram
