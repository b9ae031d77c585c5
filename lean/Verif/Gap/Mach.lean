import Verif.Gap.Scan
import Verif.Lines.Syms

/-!
# Blanks around operators and brackets: symbols of a program and what the printer does with them
-/

namespace Afmt.Gap
open Afmt.Lines (Silent puncDocs_silent flush_pend flush_none putText_pend)

/-- A text, a point where a pending line break is written, a line break, a line break or blank, a line break or nothing, or
the line break between two members. -/
inductive Sym where
  | txt (s : Str)
  | flush
  | nl
  | soft
  | maybe
  | sep (blank : Bool)

mutual
/-- Symbols of a program without comments. -/
def gs : Prog → List Sym
  | .txt s => [.txt s]
  | .nl => [.nl]
  | .softline => [.soft]
  | .maybeline => [.maybe]
  | .forceBreak => []
  | .sep b => [.sep b]
  | .concat ps => gss ps
  | .group p => .flush :: gs p
  | .indent p | .dedent p => gs p
  | .pre _ | .post _ | .dangling _ | .rootDangling _ => []
  | .punct p => [.txt p.text]
  | .ifDangling _ _ q => gs q
  | .fail _ => []
def gss : List Prog → List Sym
  | [] => []
  | p :: ps => gs p ++ gss ps
end

theorem gss_append (a b : List Prog) : gss (a ++ b) = gss a ++ gss b := by
  induction a with
  | nil => simp [gss]
  | cons p a ih => simp [gss, ih]

/-- Operations a symbol may stand for. -/
inductive Res : Sym → List Op → Prop
  | txt (s n) : Res (.txt s) [.text s n]
  | flush : Res .flush [.flush]
  | nl (i) : Res .nl [.pend i]
  | softBreak (i) : Res .soft [.pend i]
  | softBlank : Res .soft [.space]
  | maybeBreak (i) : Res .maybe [.pend i]
  | maybeNone : Res .maybe []
  | blank (i) : Res (.sep true) [.bare, .pend i]
  | line (i) : Res (.sep false) [.pend i]

inductive Ress : List Sym → List Op → Prop
  | nil : Ress [] []
  | cons {x xs o os} : Res x o → Ress xs os → Ress (x :: xs) (o ++ os)

theorem Ress.one {x : Sym} {o : List Op} (h : Res x o) : Ress [x] o := by
  have := Ress.cons h .nil
  simpa using this

theorem Ress.append {a b : List Sym} {o o' : List Op} (h : Ress a o) (h' : Ress b o') : Ress (a ++ b) (o ++ o') := by
  induction h with
  | nil => exact h'
  | cons hx _ ih => rw [List.append_assoc]; exact .cons hx ih

mutual
/-- Printing a program without comments performs operations its symbols stand for. -/
theorem pr_ress {cm : CMap} (hs : Silent cm) (k w : Nat) : ∀ (p : Prog) (d : Doc) (l : List Comment),
    p.build k cm = .ok (d, l) → ∀ (i : Nat) (fl : Bool) (rest : List Chunk) (st : PSt),
    ∃ ops, pr w d i fl rest st = runOps ops st ∧ Ress (gs p) ops
  | .txt s, d, l, h, i, fl, rest, st => by
    rw [Prog.build] at h; cases h
    exact ⟨_, by simp [Afmt.txt, pr, Op.run]; rfl, .one (.txt s _)⟩
  | .nl, d, l, h, i, fl, rest, st => by
    rw [Prog.build] at h; cases h
    exact ⟨[.pend i], by simp [Afmt.nl, pr, Op.run], .one (.nl i)⟩
  | .softline, d, l, h, i, fl, rest, st => by
    rw [Prog.build] at h; cases h
    cases fl
    · exact ⟨[.pend i], by simp [pr, Op.run], .one (.softBreak i)⟩
    · exact ⟨[.space], by simp [pr, Op.run], .one .softBlank⟩
  | .maybeline, d, l, h, i, fl, rest, st => by
    rw [Prog.build] at h; cases h
    cases fl
    · exact ⟨[.pend i], by simp [pr, Op.run], .one (.maybeBreak i)⟩
    · exact ⟨[], by simp [pr], .one .maybeNone⟩
  | .forceBreak, d, l, h, i, fl, rest, st => by
    rw [Prog.build] at h; cases h
    exact ⟨[], by simp [pr], .nil⟩
  | .sep b, d, l, h, i, fl, rest, st => by
    rw [Prog.build] at h; cases h
    cases b
    · exact ⟨[.pend i], by simp [Afmt.nl, pr, Op.run], .one (.line i)⟩
    · exact ⟨[.bare, .pend i], by simp [emptyNewLine, pr, prs, Op.run], .one (.blank i)⟩
  | .concat ps, d, l, h, i, fl, rest, st => by
    rw [Prog.build] at h
    cases hb : Prog.builds k cm ps with
    | error e => rw [hb] at h; cases h
    | ok a =>
      rw [hb] at h; cases h
      rw [pr, gs]
      exact prs_ress hs k w ps a.1 a.2 hb i fl rest st
  | .group p, d, l, h, i, fl, rest, st => by
    rw [Prog.build] at h
    cases hb : Prog.build k cm p with
    | error e => rw [hb] at h; cases h
    | ok a =>
      rw [hb] at h; cases h
      have key : ∀ fl', ∃ ops, pr w a.1 i fl' rest st.flush = runOps ops st ∧ Ress (gs (.group p)) ops := by
        intro fl'
        obtain ⟨ops, h1, h2⟩ := pr_ress hs k w p a.1 a.2 hb i fl' rest st.flush
        refine ⟨.flush :: ops, by rw [h1]; simp [Op.run], ?_⟩
        rw [gs]
        exact .cons .flush h2
      simp only [Afmt.group, pr]
      split
      · exact key true
      · split
        · exact key true
        · exact key fl
  | .indent p, d, l, h, i, fl, rest, st => by
    rw [Prog.build] at h
    cases hb : Prog.build k cm p with
    | error e => rw [hb] at h; cases h
    | ok a =>
      rw [hb] at h; cases h
      rw [gs, indentDoc, pr]
      exact pr_ress hs k w p a.1 a.2 hb _ fl rest st
  | .dedent p, d, l, h, i, fl, rest, st => by
    rw [Prog.build] at h
    cases hb : Prog.build k cm p with
    | error e => rw [hb] at h; cases h
    | ok a =>
      rw [hb] at h; cases h
      rw [gs, dedentDoc, pr]
      exact pr_ress hs k w p a.1 a.2 hb _ fl rest st
  | .pre id, d, l, h, i, fl, rest, st => by
    rw [Prog.build] at h
    cases hb : getBucket cm id with
    | error e => rw [hb] at h; cases h
    | ok b => rw [hb] at h; cases h; rw [(hs _ _ hb).1]; exact ⟨[], by simp [preDocs, pr, prs], .nil⟩
  | .post id, d, l, h, i, fl, rest, st => by
    rw [Prog.build] at h
    cases hb : getBucket cm id with
    | error e => rw [hb] at h; cases h
    | ok b => rw [hb] at h; cases h; rw [(hs _ _ hb).2.1]; exact ⟨[], by simp [postDocs, pr, prs], .nil⟩
  | .rootDangling id, d, l, h, i, fl, rest, st => by
    rw [Prog.build] at h
    cases hb : getBucket cm id with
    | error e => rw [hb] at h; cases h
    | ok b => rw [hb] at h; cases h; rw [(hs _ _ hb).2.2]; exact ⟨[], by simp [pr, prs], .nil⟩
  | .dangling id, d, l, h, i, fl, rest, st => by
    rw [Prog.build] at h
    cases hb : getBucket cm id with
    | error e => rw [hb] at h; cases h
    | ok b =>
      rw [hb] at h
      dsimp only at h
      rw [if_pos (hs _ _ hb).2.2] at h
      cases h
  | .punct p, d, l, h, i, fl, rest, st => by
    rw [Prog.build] at h
    cases hb : getBucket cm p.id with
    | error e => rw [hb] at h; cases h
    | ok b =>
      rw [hb] at h; cases h
      rw [puncDocs_silent (hs _ _ hb).1 (hs _ _ hb).2.1]
      exact ⟨_, by simp [Afmt.txt, pr, prs, Op.run]; rfl, .one (.txt p.text _)⟩
  | .ifDangling id p q, d, l, h, i, fl, rest, st => by
    rw [Prog.build] at h
    cases hb : getBucket cm id with
    | error e => rw [hb] at h; cases h
    | ok b =>
      rw [hb] at h
      dsimp only at h
      rw [if_neg (by simp [(hs _ _ hb).2.2])] at h
      rw [gs]; exact pr_ress hs k w q d l h i fl rest st
  | .fail e, d, l, h, i, fl, rest, st => by rw [Prog.build] at h; cases h
theorem prs_ress {cm : CMap} (hs : Silent cm) (k w : Nat) : ∀ (ps : List Prog) (ds : List Doc) (l : List Comment),
    Prog.builds k cm ps = .ok (ds, l) → ∀ (i : Nat) (fl : Bool) (rest : List Chunk) (st : PSt),
    ∃ ops, prs w ds i fl rest st = runOps ops st ∧ Ress (gss ps) ops
  | [], ds, l, h, i, fl, rest, st => by
    rw [Prog.builds] at h; cases h
    exact ⟨[], by simp [prs], .nil⟩
  | p :: ps, ds, l, h, i, fl, rest, st => by
    rw [Prog.builds] at h
    cases h1 : Prog.build k cm p with
    | error e => rw [h1] at h; cases h
    | ok a =>
      rw [h1] at h
      cases h2 : Prog.builds k cm ps with
      | error e => rw [h2] at h; cases h
      | ok b =>
        rw [h2] at h; cases h
        obtain ⟨o1, e1, r1⟩ := pr_ress hs k w p a.1 a.2 h1 i fl
          (b.1.map (fun d => { doc := d, indent := i, flat := fl }) ++ rest) st
        obtain ⟨o2, e2, r2⟩ := prs_ress hs k w ps b.1 b.2 h2 i fl rest
          (pr w a.1 i fl (b.1.map (fun d => { doc := d, indent := i, flat := fl }) ++ rest) st)
        refine ⟨o1 ++ o2, ?_, ?_⟩
        · rw [prs, e2, runOps_append, e1]
        · rw [gss]; exact r1.append r2
end

/-! ### The machine -/

/-- The reader is inside a string literal. -/
def Sc.inside : Sc → Bool
  | .I | .J => true
  | _ => false

/-- Sets of states of the reader. -/
abbrev Sp := Sc → Bool

/-- Every text the symbols can become is read without complaint from `x`, and the reader ends in `Q`. -/
def wp (t : Bool) : List Sym → Sp → Sc → Bool
  | [], Q, x => Q x
  | .txt s :: r, Q, x => !x.inside && (scan t x s).any (wp t r Q)
  | .flush :: r, Q, x => wp t r Q x
  | .nl :: r, Q, x => !x.inside && ((step t x '\n').any (wp t r Q))
  | .sep _ :: r, Q, x => !x.inside && ((step t x '\n').any (wp t r Q))
  | .soft :: r, Q, x => !x.inside && (x != .L && (step t x ' ').any (wp t r Q) && (step t x '\n').any (wp t r Q))
  | .maybe :: r, Q, x => !x.inside && (wp t r Q x && (step t x '\n').any (wp t r Q))

theorem any_mono {α : Type} {o : Option α} {p q : α → Bool} (h : ∀ x, p x = true → q x = true) (ho : o.any p = true) :
    o.any q = true := by
  cases o with
  | none => cases ho
  | some x => exact h x ho

theorem wp_mono {t : Bool} {xs : List Sym} : ∀ {Q R : Sp}, (∀ y, Q y = true → R y = true) → ∀ x, wp t xs Q x = true → wp t xs R x = true := by
  induction xs with
  | nil => intro Q R h x hx; exact h x hx
  | cons s xs ih =>
    intro Q R h x hx
    cases s <;> simp only [wp, Bool.and_eq_true] at hx ⊢
    · exact ⟨hx.1, any_mono (ih h) hx.2⟩
    · exact ih h x hx
    · exact ⟨hx.1, any_mono (ih h) hx.2⟩
    · exact ⟨hx.1, ⟨hx.2.1.1, any_mono (ih h) hx.2.1.2⟩, any_mono (ih h) hx.2.2⟩
    · exact ⟨hx.1, ih h x hx.2.1, any_mono (ih h) hx.2.2⟩
    · exact ⟨hx.1, any_mono (ih h) hx.2⟩

theorem wp_append {t : Bool} {xs ys : List Sym} {Q : Sp} : ∀ x, wp t (xs ++ ys) Q x = wp t xs (wp t ys Q) x := by
  induction xs with
  | nil => intro x; rfl
  | cons s xs ih =>
    intro x
    have : wp t (xs ++ ys) Q = wp t xs (wp t ys Q) := funext ih
    cases s <;> simp only [List.cons_append, wp, this]

theorem any_le {o o' : Option Sc} {p q : Sc → Bool} (h : ∀ x, o = some x → o' = some x) (hp : ∀ x, p x = true → q x = true)
    (ho : o.any p = true) : o'.any q = true := by
  cases o with
  | none => cases ho
  | some x => rw [h x rfl]; exact hp x ho

/-- Allowing a tight `=` allows more. -/
theorem wp_tight {xs : List Sym} {Q : Sp} : ∀ x, wp false xs Q x = true → wp true xs Q x = true := by
  induction xs with
  | nil => intro x hx; exact hx
  | cons s xs ih =>
    intro x hx
    cases s <;> simp only [wp, Bool.and_eq_true] at hx ⊢
    · exact ⟨hx.1, any_le (fun _ => scan_mono) ih hx.2⟩
    · exact ih x hx
    · exact ⟨hx.1, any_le (fun _ => step_mono) ih hx.2⟩
    · exact ⟨hx.1, ⟨hx.2.1.1, any_le (fun _ => step_mono) ih hx.2.1.2⟩, any_le (fun _ => step_mono) ih hx.2.2⟩
    · exact ⟨hx.1, ih x hx.2.1, any_le (fun _ => step_mono) ih hx.2.2⟩
    · exact ⟨hx.1, any_le (fun _ => step_mono) ih hx.2⟩

theorem wp_le {t : Bool} {xs : List Sym} {Q : Sp} {x : Sc} (h : wp false xs Q x = true) : wp t xs Q x = true := by
  cases t with
  | false => exact h
  | true => exact wp_tight x h

/-! ### What the machine says about the output -/

/-- A line break leads to the start of a line. -/
theorem step_feed {t : Bool} {x y : Sc} (hx : x.inside = false) (h : step t x '\n' = some y) : y = .L := by
  cases x <;> first | cases hx | skip
  all_goals
    have hc : cc '\n' = .feed := by decide
    simp only [step, hc] at h
    split at h
    · cases h; rfl
    · cases h

/-- After a blank. -/
theorem step_blank {t : Bool} {x y : Sc} (hx : x.inside = false) (h : step t x ' ' = some y) : y = .W ∨ y = .L := by
  have hc : cc ' ' = .blank := by decide
  have : step t x ' ' = if x.open_ && x != .O then (if x = .L then some .L else some .W) else none := by
    cases x <;> first | rfl | cases hx
  rw [this] at h
  split at h
  · split at h <;> (cases h; simp)
  · cases h

theorem scan_spaces (t : Bool) (n : Nat) : scan t .L (spaces n) = some .L := by
  induction n with
  | zero => rfl
  | succ n ih => exact ih

/-- The reader is in state `x` after the output, a pending line break included. -/
def Rel (t : Bool) (x : Sc) (st : PSt) : Prop :=
  x.inside = false ∧
  match st.pend with
  | none => scan t .L st.out = some x
  | some _ => x = .L ∧ ∃ y, scan t .L st.out = some y ∧ y.inside = false ∧ step t y '\n' = some .L

theorem Rel.flush {t : Bool} {x : Sc} {st : PSt} (h : Rel t x st) : Rel t x st.flush := by
  cases hp : st.pend with
  | none => rw [flush_none hp]; exact h
  | some i =>
    obtain ⟨h0, h⟩ := h
    rw [hp] at h
    obtain ⟨rfl, y, h1, -, h2⟩ := h
    refine ⟨rfl, ?_⟩
    simp only [PSt.flush, hp]
    rw [scan_append, h1, Option.bind_some, scan, h2, Option.bind_some, scan_spaces]

/-- The output after writing the pending line break. -/
theorem Rel.out {t : Bool} {x : Sc} {st : PSt} (h : Rel t x st) (hp : st.pend = none) : scan t .L st.out = some x := by
  have := h.2
  rwa [hp] at this

theorem scan_last {t : Bool} {s : Str} {x y : Sc} {c : Char} (h : scan t x (s ++ [c]) = some y) : ∃ z, scan t x s = some z ∧ step t z c = some y := by
  rw [scan_append] at h
  cases hs : scan t x s with
  | none => rw [hs] at h; cases h
  | some z =>
    rw [hs, Option.bind_some, scan] at h
    refine ⟨z, rfl, ?_⟩
    cases hz : step t z c with
    | none => rw [hz] at h; cases h
    | some u => rw [hz] at h; exact h

/-- After a blank outside of string literals. -/
theorem after_blank {t : Bool} {s : Str} {x y : Sc} (h : scan t x s = some y) (he : endsWithSpace s = true) (hy : y.inside = false) :
    y = .W ∨ y = .L := by
  unfold endsWithSpace at he
  rw [beq_iff_eq] at he
  obtain ⟨u, rfl⟩ := List.getLast?_eq_some_iff.1 he
  obtain ⟨z, -, hz⟩ := scan_last h
  cases hi : z.inside with
  | false => exact step_blank hi hz
  | true => cases z <;> first | (cases hz; cases hy; done) | (cases hi; done)

theorem Rel.text {t : Bool} {x y : Sc} {st : PSt} (h : Rel t x st) {s : Str} (n : Nat) (hs : scan t x s = some y) (hy : y.inside = false) :
    Rel t y (st.flush.putText s n) := by
  have hf := h.flush.out (flush_pend st)
  refine ⟨hy, ?_⟩
  have hp : (st.flush.putText s n).pend = none := by rw [putText_pend, flush_pend]
  rw [hp]
  show scan t .L (st.flush.putText s n).out = some y
  unfold PSt.putText
  split
  · rename_i hc
    have h1 : scan t x [' '] = some y := by rw [← hc.1]; exact hs
    rcases after_blank hf hc.2 h.1 with rfl | rfl <;> (cases h1; exact hf)
  · show scan t .L (st.flush.out ++ s) = some y
    rw [scan_append, hf]; exact hs

theorem Rel.line {t : Bool} {x : Sc} {st : PSt} (h : Rel t x st) (i : Nat) (hs : step t x '\n' = some .L) :
    Rel t .L { st with pend := some i } := by
  refine ⟨rfl, rfl, ?_⟩
  obtain ⟨h0, h⟩ := h
  split at h
  · exact ⟨x, h, h0, hs⟩
  · exact h.2

theorem any_get {α : Type} {o : Option α} {p : α → Bool} (h : o.any p = true) : ∃ x, o = some x ∧ p x = true := by
  cases o with
  | none => cases h
  | some x => exact ⟨x, rfl, h⟩

theorem feed_get {t : Bool} {x : Sc} {p : Sc → Bool} (hx : x.inside = false) (h : (step t x '\n').any p = true) :
    step t x '\n' = some .L ∧ p .L = true := by
  obtain ⟨y, h1, h2⟩ := any_get h
  have := step_feed hx h1
  subst this
  exact ⟨h1, h2⟩

/-- Outside of string literals. -/
def code : Sp := fun x => !x.inside

/-- The printer writes texts that are read without complaint; every text ends outside of string literals. -/
theorem wp_run {t : Bool} {xs : List Sym} {ops : List Op} (h : Ress xs ops) : ∀ {x : Sc} {st : PSt}, Rel t x st →
    wp t xs code x = true → ∃ y, Rel t y (runOps ops st) := by
  induction h with
  | nil => intro x st h _; exact ⟨x, h⟩
  | @cons s xs o os hx hr ih =>
    intro x st h1 h3
    rw [runOps_append]
    cases hx with
    | txt s n =>
      rw [wp, Bool.and_eq_true] at h3
      obtain ⟨y, h4, h5⟩ := any_get h3.2
      have hy : y.inside = false := by
        cases hi : y.inside with
        | false => rfl
        | true =>
          exfalso
          clear ih hr h1 h3 h4
          induction xs with
          | nil => simp [wp, code, hi] at h5
          | cons z xs ihx =>
            cases z <;> simp only [wp, hi, Bool.not_true, Bool.false_and, Bool.false_eq_true] at h5
            exact ihx h5
      exact ih (h1.text n h4 hy) h5
    | flush => exact ih h1.flush h3
    | nl i | line i =>
      rw [wp, Bool.and_eq_true] at h3
      obtain ⟨h4, h5⟩ := feed_get h1.1 h3.2
      exact ih (h1.line i h4) h5
    | softBreak i =>
      rw [wp, Bool.and_eq_true, Bool.and_eq_true] at h3
      obtain ⟨h4, h5⟩ := feed_get h1.1 h3.2.2
      exact ih (h1.line i h4) h5
    | softBlank =>
      rw [wp, Bool.and_eq_true, Bool.and_eq_true, Bool.and_eq_true] at h3
      obtain ⟨y, h4, h5⟩ := any_get h3.2.1.2
      have hL : x ≠ .L := by simpa using h3.2.1.1
      refine ih (x := y) ?_ h5
      obtain ⟨h0, h⟩ := h1
      split at h
      · rename_i hp
        have hy : y.inside = false := by
          rcases step_blank h0 h4 with rfl | rfl <;> rfl
        refine ⟨hy, ?_⟩
        show match st.pend with | none => _ | some _ => _
        rw [hp]
        show scan t .L (st.out ++ [' ']) = some y
        rw [scan_append, h, Option.bind_some, scan, h4]; rfl
      · exact absurd h.1 hL
    | maybeBreak i =>
      rw [wp, Bool.and_eq_true, Bool.and_eq_true] at h3
      obtain ⟨h4, h5⟩ := feed_get h1.1 h3.2.2
      exact ih (h1.line i h4) h5
    | maybeNone =>
      rw [wp, Bool.and_eq_true, Bool.and_eq_true] at h3
      exact ih h1 h3.2.1
    | blank i =>
      rw [wp, Bool.and_eq_true] at h3
      obtain ⟨h4, h5⟩ := feed_get h1.1 h3.2
      refine ih (x := .L) ?_ h5
      have key : ∃ y, scan t .L st.out = some y ∧ y.inside = false ∧ step t y '\n' = some .L := by
        obtain ⟨h0, h⟩ := h1
        split at h
        · exact ⟨x, h, h0, h4⟩
        · exact h.2
      obtain ⟨y, g1, g2, g3⟩ := key
      refine ⟨rfl, rfl, .L, ?_, rfl, rfl⟩
      show scan t .L (st.out ++ ['\n']) = some .L
      rw [scan_append, g1, Option.bind_some, scan, g3]; rfl

/-- The layout of a program without comments whose symbols are fine. -/
theorem layout_spaced {t : Bool} {cm : CMap} (hs : Silent cm) {k : Nat} {p : Prog} {d : Doc} {l : List Comment}
    (h : p.build k cm = .ok (d, l)) (w : Nat) (hr : wp t (gs p) code .L = true) : spaced t (layout w d) = true := by
  obtain ⟨ops, h1, h2⟩ := pr_ress hs k w p d l h 0 false [] PSt.init
  unfold layout spaced
  rw [h1]
  obtain ⟨y, hy⟩ := wp_run h2 (x := .L) (st := PSt.init) ⟨rfl, rfl⟩ hr
  rw [hy.flush.out (flush_pend _)]; rfl

end Afmt.Gap
