import Verif.LevelSpec
import Verif.Notes.Syms

/-!
# Columns of the output

The symbols of a program, with the indentation of every hard line break.  The first visible character after a hard line
break stands in the column of its indentation unless white space comes in between.
-/

namespace Afmt.Levels
open Afmt.Lines (flush_pend flush_none putText_pend)
open Afmt.Notes (Br Lead Role Roles PreRoles PostRoles Sym bucketOf bucketOf_get comSyms textSyms lineSyms)

/-! ### Columns -/

/-- Blanks of the last line, if it has no visible character. -/
def last (m : Option Nat) : Str → Option Nat
  | [] => m
  | c :: s => if c = '\n' then last (some 0) s else if c = ' ' then last (m.map (· + 1)) s else last none s

theorem columns_append (a b : Str) : ∀ m, columns m (a ++ b) = columns m a ++ columns (last m a) b := by
  induction a with
  | nil => intro m; rfl
  | cons c a ih =>
    intro m
    simp only [List.cons_append, columns, last]
    split
    · exact ih _
    · split
      · exact ih _
      · rw [ih]; rfl

theorem last_append (a b : Str) : ∀ m, last m (a ++ b) = last (last m a) b := by
  induction a with
  | nil => intro m; rfl
  | cons c a ih =>
    intro m
    simp only [List.cons_append, last]
    split
    · exact ih _
    · split
      · exact ih _
      · exact ih _

theorem columns_spaces (n : Nat) : ∀ m, columns m (spaces n) = [] := by
  induction n with
  | zero => intro m; rfl
  | succ n ih => intro m; exact ih _

theorem last_spaces (n : Nat) : ∀ j, last (some j) (spaces n) = some (j + n) := by
  induction n with
  | zero => intro j; rfl
  | succ n ih =>
    intro j
    show last (some (j + 1)) (spaces n) = _
    rw [ih]
    congr 1
    omega

theorem columns_length (s : Str) : ∀ m, (columns m s).length = (ink s).length := by
  induction s with
  | nil => intro m; rfl
  | cons c s ih =>
    intro m
    simp only [columns, ink]
    split
    · rename_i h; subst h; simpa [ink, isBlank] using ih _
    · split
      · rename_i h; subst h; simpa [ink, isBlank] using ih _
      · rename_i h1 h2
        have : (!isBlank c) = true := by simp [isBlank, h1, h2]
        rw [List.filter_cons_of_pos (by exact this)]
        simpa [ink] using ih none

/-! ### Requirements -/

/-- The columns meet the requirements. -/
inductive Meets : List (Option Nat) → List (Option Nat) → Prop
  | nil : Meets [] []
  | cons {a b as bs} : b = none ∨ a = b → Meets as bs → Meets (a :: as) (b :: bs)

theorem meets_agree {a b : List (Option Nat)} (h : Meets a b) : agree a b = true := by
  induction h with
  | nil => rfl
  | cons h _ ih =>
    rw [agree, ih, Bool.and_true, Bool.or_eq_true]
    rcases h with rfl | rfl
    · exact Or.inl rfl
    · exact Or.inr (by simp)

theorem Meets.append {a a' b b' : List (Option Nat)} (h : Meets a b) (h' : Meets a' b') : Meets (a ++ a') (b ++ b') := by
  induction h with
  | nil => exact h'
  | cons hx _ ih => exact .cons hx ih

theorem Meets.free : ∀ {l : List (Option Nat)} {n : Nat}, l.length = n → Meets l (List.replicate n none)
  | [], _, h => by subst h; exact .nil
  | _ :: l, _, h => by subst h; exact .cons (Or.inl rfl) (Meets.free rfl)

theorem Meets.trans {a b c : List (Option Nat)} (h : Meets a b) (h' : Meets b c) : Meets a c := by
  induction h generalizing c with
  | nil => exact h'
  | cons hx _ ih =>
    cases h' with
    | cons hy ht =>
      refine .cons ?_ (ih ht)
      rcases hy with rfl | rfl
      · exact Or.inl rfl
      · exact hx

/-- What is required after the events. -/
def fin (m : Option Nat) : List Ev → Option Nat
  | [] => m
  | .chr :: r => fin none r
  | .note :: r => fin none r
  | .shift n :: r => fin (m.map (· + n)) r
  | .line i :: r => fin (some i) r
  | .gap :: r => fin none r

theorem wanted_append (a b : List Ev) : ∀ m, wanted m (a ++ b) = wanted m a ++ wanted (fin m a) b := by
  induction a with
  | nil => intro m; rfl
  | cons x a ih => intro m; cases x <;> simp [wanted, fin, ih]

theorem fin_append (a b : List Ev) : ∀ m, fin m (a ++ b) = fin (fin m a) b := by
  induction a with
  | nil => intro m; rfl
  | cons x a ih => intro m; cases x <;> exact ih _

/-! ### Symbols with indentation -/

/-- Symbols of a program: a text of the code, a line of a comment, a point where a pending line break is written, a possible
line break, a certain one, the line break between two members, or a comment in the same line.  The certain ones have their
indentation. -/
inductive Mk where
  | code (s : Str)
  | note (s : Str)
  | flush
  | soft (may : Bool)
  | line (k : Br) (i : Nat)
  | sep (b : Bool) (i : Nat)
  | eol (s : Str)

/-- The symbol without indentation. -/
def Mk.sym : Mk → Sym
  | .code s | .note s => .txt s
  | .flush => .flush
  | .soft m => .br (if m then .may else .soft)
  | .line k _ => .br k
  | .sep b _ => .sep b
  | .eol s => .eol s

/-- Lines of a comment. -/
def lineMks (i : Nat) : List Str → List Mk
  | [] => []
  | [l] => [.note l]
  | l :: ls => .note l :: .line .cut i :: lineMks i ls

/-- The text of a comment. -/
def textMks (i : Nat) (c : Comment) : List Mk :=
  match c.type with
  | .line => [.note c.value, .line .cut i]
  | .block => lineMks i (blockLines c.value)

/-- A comment with the line breaks around it. -/
def comMks (i : Nat) (r : Role) (c : Comment) : List Mk :=
  (match r.lead with
    | .none => textMks i c
    | .sep b => .sep b i :: textMks i c
    | .eol => [.eol c.value, .line .cut i]) ++
  (match r.trail with
    | none => []
    | some b => [.sep b i])

mutual
/-- Symbols of a program with indentation. -/
def marked (ro : Comment → Role) (cm : CMap) (k i : Nat) : Prog → List Mk
  | .txt s => [.code s]
  | .nl => [.line .hard i]
  | .softline => [.soft false]
  | .maybeline => [.soft true]
  | .forceBreak => []
  | .sep b => [.sep b i]
  | .concat ps => markeds ro cm k i ps
  | .group p => .flush :: marked ro cm k i p
  | .indent p => marked ro cm k (i + k) p
  | .dedent p => marked ro cm k (i - k) p
  | .pre id => (bucketOf cm id).pre.flatMap (fun c => comMks i (ro c) c)
  | .post id => (bucketOf cm id).post.flatMap (fun c => comMks i (ro c) c)
  | .dangling _ | .rootDangling _ => []
  | .punct p => [.code p.text]
  | .ifDangling _ _ q => marked ro cm k i q
  | .fail _ => []
def markeds (ro : Comment → Role) (cm : CMap) (k i : Nat) : List Prog → List Mk
  | [] => []
  | p :: ps => marked ro cm k i p ++ markeds ro cm k i ps
end

theorem lineMks_syms (i : Nat) : ∀ ls, (lineMks i ls).map Mk.sym = lineSyms ls
  | [] | [_] => rfl
  | l :: l' :: ls => by
    show _ :: _ :: (lineMks i (l' :: ls)).map Mk.sym = _ :: _ :: lineSyms (l' :: ls)
    rw [lineMks_syms i (l' :: ls)]; rfl

theorem textMks_syms (i : Nat) (c : Comment) : (textMks i c).map Mk.sym = textSyms c := by
  unfold textMks textSyms
  cases c.type with
  | line => rfl
  | block => exact lineMks_syms i _

theorem comMks_syms (i : Nat) (r : Role) (c : Comment) : (comMks i r c).map Mk.sym = comSyms r c := by
  unfold comMks comSyms
  rw [List.map_append]
  congr 1
  · cases r.lead with
    | none => exact textMks_syms i c
    | sep b => rw [List.map_cons, textMks_syms]; rfl
    | eol => rfl
  · cases r.trail <;> rfl

theorem comsMks_syms (i : Nat) (ro : Comment → Role) (cs : List Comment) :
    (cs.flatMap (fun c => comMks i (ro c) c)).map Mk.sym = cs.flatMap (fun c => comSyms (ro c) c) := by
  rw [List.map_flatMap]
  congr 1
  funext c
  exact comMks_syms i (ro c) c

mutual
theorem marked_syms (ro : Comment → Role) (cm : CMap) (k : Nat) : ∀ (p : Prog) (i : Nat), Sym.txt ['\n'] ∉ Notes.syms ro cm p →
    (marked ro cm k i p).map Mk.sym = Notes.syms ro cm p
  | .txt s, i, _ | .nl, i, _ | .softline, i, _ | .maybeline, i, _ | .forceBreak, i, _ | .sep b, i, _
  | .dangling _, i, _ | .rootDangling _, i, _ | .fail _, i, _ => by rw [marked, Notes.syms]; rfl
  | .pre id, i, _ | .post id, i, _ => by rw [marked, Notes.syms]; exact comsMks_syms i ro _
  | .punct p, i, h => by
    rw [marked]
    rw [Notes.syms] at h ⊢
    split
    · rfl
    · rename_i he
      rw [if_neg he] at h
      exact absurd (.head _) h
  | .concat ps, i, h => by rw [Notes.syms] at h ⊢; rw [marked]; exact markeds_syms ro cm k ps i h
  | .group p, i, h => by
    rw [Notes.syms] at h ⊢
    rw [marked, List.map_cons, marked_syms ro cm k p i (fun h' => h (.tail _ h'))]; rfl
  | .indent p, i, h | .dedent p, i, h => by rw [Notes.syms] at h ⊢; rw [marked]; exact marked_syms ro cm k p _ h
  | .ifDangling _ _ q, i, h => by rw [Notes.syms] at h ⊢; rw [marked]; exact marked_syms ro cm k q i h
theorem markeds_syms (ro : Comment → Role) (cm : CMap) (k : Nat) : ∀ (ps : List Prog) (i : Nat), Sym.txt ['\n'] ∉ Notes.symss ro cm ps →
    (markeds ro cm k i ps).map Mk.sym = Notes.symss ro cm ps
  | [], i, _ => by rw [markeds, Notes.symss]; rfl
  | p :: ps, i, h => by
    rw [Notes.symss, List.mem_append] at h
    rw [markeds, Notes.symss, List.map_append, marked_syms ro cm k p i (fun h' => h (.inl h')),
      markeds_syms ro cm k ps i (fun h' => h (.inr h'))]
end

/-- Events of a text: white space at its start, and its visible characters. -/
def evT (s : Str) : List Ev :=
  (if s.head?.any isBlank then [.gap] else []) ++ List.replicate (ink s).length .chr

/-- Events of a symbol. -/
def evS : Mk → List Ev
  | .code s => evT s
  | .note s => if '\n' ∈ s then .gap :: List.replicate (ink s).length .note else written s
  | .flush => []
  | .soft _ => [.gap]
  | .line _ i | .sep _ i => [.line i]
  | .eol s => .gap :: List.replicate (ink s).length .note

/-- Events of a program. -/
def ev (ro : Comment → Role) (cm : CMap) (k i : Nat) (p : Prog) : List Ev := (marked ro cm k i p).flatMap evS

/-- Events of programs in a row. -/
def evs (ro : Comment → Role) (cm : CMap) (k i : Nat) (ps : List Prog) : List Ev := (markeds ro cm k i ps).flatMap evS

/-- Operations a symbol with indentation may stand for. -/
inductive Res : Mk → List Op → Prop
  | code (s n) : Res (.code s) [.text s n]
  | note (s n) : Res (.note s) [.text s n]
  | flush : Res .flush [.flush]
  | pend (m i) : Res (.soft m) [.pend i]
  | space : Res (.soft false) [.space]
  | none : Res (.soft true) []
  | hard (k i) : Res (.line k i) [.pend i]
  | blank (i) : Res (.sep true i) [.bare, .pend i]
  | line (i) : Res (.sep false i) [.pend i]
  | eol (s n n') : Res (.eol s) [.text [' '] n, .text s n']

inductive Ress : List Mk → List Op → Prop
  | nil : Ress [] []
  | cons {x xs o os} : Res x o → Ress xs os → Ress (x :: xs) (o ++ os)

theorem Ress.one {x : Mk} {o : List Op} (h : Res x o) : Ress [x] o := by
  have := Ress.cons h .nil
  simpa using this

theorem Ress.append {a b : List Mk} {o o' : List Op} (h : Ress a o) (h' : Ress b o') : Ress (a ++ b) (o ++ o') := by
  induction h with
  | nil => exact h'
  | cons hx _ ih => rw [List.append_assoc]; exact .cons hx ih

/-- Printing the documents performs operations the symbols stand for. -/
def Pr (i : Nat) (ds : List Doc) (xs : List Mk) : Prop :=
  ∀ (w : Nat) (fl : Bool) (rest : List Chunk) (st : PSt), ∃ ops, prs w ds i fl rest st = runOps ops st ∧ Ress xs ops

theorem Pr.nil {i : Nat} : Pr i [] [] := fun _ _ _ _ => ⟨[], by simp [prs], .nil⟩

theorem Pr.cons {i : Nat} {d : Doc} {ds : List Doc} {xs ys : List Mk} (h : ∀ (w : Nat) (fl : Bool) (rest : List Chunk) (st : PSt), ∃ ops,
    pr w d i fl rest st = runOps ops st ∧ Ress xs ops) (h' : Pr i ds ys) : Pr i (d :: ds) (xs ++ ys) := by
  intro w fl rest st
  obtain ⟨o1, e1, r1⟩ := h w fl (ds.map (fun d => { doc := d, indent := i, flat := fl }) ++ rest) st
  obtain ⟨o2, e2, r2⟩ := h' w fl rest (pr w d i fl (ds.map (fun d => { doc := d, indent := i, flat := fl }) ++ rest) st)
  exact ⟨o1 ++ o2, by rw [prs, e2, runOps_append, e1], r1.append r2⟩

theorem Pr.append {i : Nat} {ds ds' : List Doc} {xs ys : List Mk} (h : Pr i ds xs) (h' : Pr i ds' ys) : Pr i (ds ++ ds') (xs ++ ys) := by
  intro w fl rest st
  obtain ⟨o1, e1, r1⟩ := h w fl (ds'.map (fun d => { doc := d, indent := i, flat := fl }) ++ rest) st
  obtain ⟨o2, e2, r2⟩ := h' w fl rest (prs w ds i fl (ds'.map (fun d => { doc := d, indent := i, flat := fl }) ++ rest) st)
  refine ⟨o1 ++ o2, ?_, r1.append r2⟩
  rw [runOps_append, ← e1, ← e2]
  clear e1 e2 r1 r2 o1 o2 h h'
  induction ds generalizing st with
  | nil => simp [prs]
  | cons d ds ih => simp only [List.cons_append, prs, List.map_append, List.append_assoc]; exact ih _

theorem Pr.concat {i : Nat} {ds : List Doc} {xs : List Mk} (h : Pr i ds xs) (w : Nat) (fl : Bool) (rest : List Chunk) (st : PSt) :
    ∃ ops, pr w (.concat ds) i fl rest st = runOps ops st ∧ Ress xs ops := by
  rw [pr]; exact h w fl rest st

theorem pr_txt {i : Nat} (s : Str) (w : Nat) (fl : Bool) (rest : List Chunk) (st : PSt) :
    ∃ ops, pr w (Afmt.txt s) i fl rest st = runOps ops st ∧ Ress [.code s] ops :=
  ⟨_, by simp [Afmt.txt, pr, Op.run]; rfl, .one (.code s _)⟩
theorem pr_note {i : Nat} (s : Str) (w : Nat) (fl : Bool) (rest : List Chunk) (st : PSt) :
    ∃ ops, pr w (Afmt.txt s) i fl rest st = runOps ops st ∧ Ress [.note s] ops :=
  ⟨_, by simp [Afmt.txt, pr, Op.run]; rfl, .one (.note s _)⟩
theorem pr_nl {k : Br} {i : Nat} (w : Nat) (fl : Bool) (rest : List Chunk) (st : PSt) :
    ∃ ops, pr w Afmt.nl i fl rest st = runOps ops st ∧ Ress [.line k i] ops :=
  ⟨[.pend i], by simp [Afmt.nl, pr, Op.run], .one (.hard _ i)⟩
theorem pr_sep {i : Nat} (b : Bool) (w : Nat) (fl : Bool) (rest : List Chunk) (st : PSt) :
    ∃ ops, pr w (if b then Afmt.emptyNewLine else Afmt.nl) i fl rest st = runOps ops st ∧ Ress [.sep b i] ops := by
  cases b
  · exact ⟨[.pend i], by simp [Afmt.nl, pr, Op.run], .one (.line i)⟩
  · exact ⟨[.bare, .pend i], by simp [emptyNewLine, pr, prs, Op.run], .one (.blank i)⟩
theorem pr_force {i : Nat} (w : Nat) (fl : Bool) (rest : List Chunk) (st : PSt) :
    ∃ ops, pr w .forceBreak i fl rest st = runOps ops st ∧ Ress [] ops :=
  ⟨[], by simp [pr], .nil⟩

theorem Pr_lines {i : Nat} : ∀ (ls : List Str), Pr i (linesDoc ls) (lineMks i ls)
  | [] => .nil
  | [l] => .cons (pr_note l) .nil
  | l :: l' :: ls => .cons (pr_note l) (.cons pr_nl (Pr_lines (l' :: ls)))

theorem pr_comment {i : Nat} (c : Comment) (w : Nat) (fl : Bool) (rest : List Chunk) (st : PSt) :
    ∃ ops, pr w c.build i fl rest st = runOps ops st ∧ Ress (textMks i c) ops := by
  unfold Comment.build textMks
  cases c.type with
  | line => exact Pr.concat (.cons (pr_note _) (.cons pr_nl .nil)) w fl rest st
  | block => exact Pr.concat (Pr_lines _) w fl rest st

theorem Pr_post {ro : Comment → Role} {i : Nat} : ∀ {cs : List Comment}, PostRoles ro cs →
    Pr i (postDocs cs) (cs.flatMap (fun c => comMks i (ro c) c))
  | [], _ => .nil
  | c :: cs, h => by
    obtain ⟨h1, h2, h3, h4, h5⟩ := h
    have ih := Pr_post (i := i) h5
    rw [postDocs, List.flatMap_cons]
    have ht : postTrail c = [] := by simp [postTrail, h1]
    rw [ht, List.nil_append, comMks, h2, h3]
    unfold postLead
    cases hl : c.meta'.hasLeadingContent with
    | false =>
      rw [List.append_nil]
      have := Pr.cons (ds := c.build :: postDocs cs) (pr_sep c.meta'.hasEmptyLineAbove) (.cons (pr_comment c) ih)
      simpa using this
    | true =>
      rw [List.append_nil]
      have hc := h4 hl
      refine Pr.append (ds := [txt [' '], c.build]) ?_ ih
      have hb : c.build = .concat [txt c.value, nl] := by simp [Comment.build, hc]
      rw [hb]
      intro w fl rest st
      exact ⟨[.text [' '] (byteLen [' ']), .text c.value (byteLen c.value)] ++ ([.pend i] ++ []),
        by simp [prs, pr, Afmt.txt, Afmt.nl, Op.run, byteLen], .cons (.eol _ _ _) (.cons (.hard _ i) .nil)⟩

theorem Pr_pre {ro : Comment → Role} {i : Nat} : ∀ {cs : List Comment} {first : Bool}, PreRoles ro first cs →
    Pr i (preDocs first cs) (cs.flatMap (fun c => comMks i (ro c) c))
  | [], _, _ => .nil
  | c :: cs, first, h => by
    obtain ⟨h1, h2, h3, h4, h5⟩ := h
    have ih := Pr_pre (i := i) h5
    rw [preDocs, List.flatMap_cons]
    refine Pr.append ?_ ih
    rw [h1, h2, comMks, h3, h4]
    simp only [Bool.false_eq_true, if_false]
    have t : Pr i (if cs = [] then (if c.meta'.hasEmptyLineBelow = true then [emptyNewLine] else [nl]) else [])
        (match (if cs = [] then some c.meta'.hasEmptyLineBelow else none) with
          | none => []
          | some b => [.sep b i]) := by
      by_cases hc : cs = []
      · simp only [hc, if_true]
        have := Pr.cons (i := i) (pr_sep c.meta'.hasEmptyLineBelow) .nil
        cases hb : c.meta'.hasEmptyLineBelow <;> simpa [hb] using this
      · simp only [hc, if_false]; exact .nil
    refine Pr.append ?_ t
    cases first with
    | true =>
      have := Pr.cons (i := i) pr_force (.cons (pr_comment c) .nil)
      simpa using this
    | false =>
      have := Pr.cons (i := i) pr_force (.cons (pr_sep c.meta'.hasEmptyLineAbove) (.cons (pr_comment c) .nil))
      cases hb : c.meta'.hasEmptyLineAbove <;> simpa [hb] using this

mutual
/-- Printing a program performs operations its symbols stand for, unless the comments of a punctuation are in the way. -/
theorem pr_ress {ro : Comment → Role} {cm : CMap} (hs : Roles ro cm) (k w : Nat) : ∀ (p : Prog) (d : Doc) (l : List Comment),
    p.build k cm = .ok (d, l) → Sym.txt ['\n'] ∉ Notes.syms ro cm p → ∀ (i : Nat) (fl : Bool) (rest : List Chunk) (st : PSt),
    ∃ ops, pr w d i fl rest st = runOps ops st ∧ Ress (marked ro cm k i p) ops
  | .txt s, d, l, h, _, i, fl, rest, st => by
    rw [Prog.build] at h; cases h
    exact pr_txt s w fl rest st
  | .nl, d, l, h, _, i, fl, rest, st => by
    rw [Prog.build] at h; cases h
    exact pr_nl w fl rest st
  | .softline, d, l, h, _, i, fl, rest, st => by
    rw [Prog.build] at h; cases h
    cases fl
    · exact ⟨[.pend i], by simp [pr, Op.run], .one (.pend _ i)⟩
    · exact ⟨[.space], by simp [pr, Op.run], .one .space⟩
  | .maybeline, d, l, h, _, i, fl, rest, st => by
    rw [Prog.build] at h; cases h
    cases fl
    · exact ⟨[.pend i], by simp [pr, Op.run], .one (.pend _ i)⟩
    · exact ⟨[], by simp [pr], .one .none⟩
  | .forceBreak, d, l, h, _, i, fl, rest, st => by
    rw [Prog.build] at h; cases h
    exact ⟨[], by simp [pr], .nil⟩
  | .sep b, d, l, h, _, i, fl, rest, st => by
    rw [Prog.build] at h; cases h
    exact pr_sep b w fl rest st
  | .concat ps, d, l, h, hn, i, fl, rest, st => by
    rw [Prog.build] at h
    cases hb : Prog.builds k cm ps with
    | error e => rw [hb] at h; cases h
    | ok a =>
      rw [hb] at h; cases h
      rw [pr, marked]
      exact prs_ress hs k w ps a.1 a.2 hb (by rwa [Notes.syms] at hn) i fl rest st
  | .group p, d, l, h, hn, i, fl, rest, st => by
    rw [Prog.build] at h
    cases hb : Prog.build k cm p with
    | error e => rw [hb] at h; cases h
    | ok a =>
      rw [hb] at h; cases h
      have key : ∀ fl', ∃ ops, pr w a.1 i fl' rest st.flush = runOps ops st ∧ Ress (marked ro cm k i (.group p)) ops := by
        intro fl'
        obtain ⟨ops, h1, h2⟩ := pr_ress hs k w p a.1 a.2 hb (fun h => hn (by rw [Notes.syms]; exact .tail _ h)) i fl' rest st.flush
        refine ⟨.flush :: ops, by rw [h1]; simp [Op.run], ?_⟩
        rw [marked]
        exact .cons .flush h2
      simp only [Afmt.group, pr]
      split
      · exact key true
      · split
        · exact key true
        · exact key fl
  | .indent p, d, l, h, hn, i, fl, rest, st => by
    rw [Prog.build] at h
    cases hb : Prog.build k cm p with
    | error e => rw [hb] at h; cases h
    | ok a =>
      rw [hb] at h; cases h
      rw [marked, indentDoc, pr]
      exact pr_ress hs k w p a.1 a.2 hb (by rwa [Notes.syms] at hn) _ fl rest st
  | .dedent p, d, l, h, hn, i, fl, rest, st => by
    rw [Prog.build] at h
    cases hb : Prog.build k cm p with
    | error e => rw [hb] at h; cases h
    | ok a =>
      rw [hb] at h; cases h
      rw [marked, dedentDoc, pr]
      exact pr_ress hs k w p a.1 a.2 hb (by rwa [Notes.syms] at hn) _ fl rest st
  | .pre id, d, l, h, _, i, fl, rest, st => by
    rw [Prog.build] at h
    cases hb : getBucket cm id with
    | error e => rw [hb] at h; cases h
    | ok b =>
      rw [hb] at h; cases h
      have := hs.pre id
      rw [marked]
      rw [bucketOf_get hb] at *
      exact Pr.concat (Pr_pre this) w fl rest st
  | .post id, d, l, h, _, i, fl, rest, st => by
    rw [Prog.build] at h
    cases hb : getBucket cm id with
    | error e => rw [hb] at h; cases h
    | ok b =>
      rw [hb] at h; cases h
      have := hs.post id
      rw [marked]
      rw [bucketOf_get hb] at *
      exact Pr.concat (Pr_post this) w fl rest st
  | .rootDangling id, d, l, h, _, i, fl, rest, st => by
    rw [Prog.build] at h
    cases hb : getBucket cm id with
    | error e => rw [hb] at h; cases h
    | ok b =>
      rw [hb] at h; cases h
      have := hs.dangling id
      rw [bucketOf_get hb] at this
      rw [this]; exact ⟨[], by simp [pr, prs], .nil⟩
  | .dangling id, d, l, h, _, i, fl, rest, st => by
    rw [Prog.build] at h
    cases hb : getBucket cm id with
    | error e => rw [hb] at h; cases h
    | ok b =>
      rw [hb] at h
      have := hs.dangling id
      rw [bucketOf_get hb] at this
      dsimp only at h
      rw [if_pos this] at h
      cases h
  | .punct p, d, l, h, hn, i, fl, rest, st => by
    rw [Prog.build] at h
    cases hb : getBucket cm p.id with
    | error e => rw [hb] at h; cases h
    | ok b =>
      rw [hb] at h; cases h
      rw [Notes.syms] at hn
      rw [marked]
      by_cases he : bucketOf cm p.id = Bucket.empty
      · rw [bucketOf_get hb] at he
        subst he
        have : puncDocs Bucket.empty p = [Afmt.txt p.text] := by simp [puncDocs, Bucket.empty, postDocs]
        rw [this]
        exact Pr.concat (.cons (pr_txt _) .nil) w fl rest st
      · rw [if_neg he] at hn
        exact absurd (.head _) hn
  | .ifDangling id p q, d, l, h, hn, i, fl, rest, st => by
    rw [Prog.build] at h
    cases hb : getBucket cm id with
    | error e => rw [hb] at h; cases h
    | ok b =>
      rw [hb] at h
      have := hs.dangling id
      rw [bucketOf_get hb] at this
      dsimp only at h
      rw [if_neg (by simp [this])] at h
      rw [marked]; exact pr_ress hs k w q d l h (by rwa [Notes.syms] at hn) i fl rest st
  | .fail e, d, l, h, _, i, fl, rest, st => by rw [Prog.build] at h; cases h
theorem prs_ress {ro : Comment → Role} {cm : CMap} (hs : Roles ro cm) (k w : Nat) : ∀ (ps : List Prog) (ds : List Doc) (l : List Comment),
    Prog.builds k cm ps = .ok (ds, l) → Sym.txt ['\n'] ∉ Notes.symss ro cm ps → ∀ (i : Nat) (fl : Bool) (rest : List Chunk) (st : PSt),
    ∃ ops, prs w ds i fl rest st = runOps ops st ∧ Ress (markeds ro cm k i ps) ops
  | [], ds, l, h, _, i, fl, rest, st => by
    rw [Prog.builds] at h; cases h
    exact ⟨[], by simp [prs], .nil⟩
  | p :: ps, ds, l, h, hn, i, fl, rest, st => by
    rw [Prog.builds] at h
    rw [Notes.symss, List.mem_append] at hn
    cases h1 : Prog.build k cm p with
    | error e => rw [h1] at h; cases h
    | ok a =>
      rw [h1] at h
      cases h2 : Prog.builds k cm ps with
      | error e => rw [h2] at h; cases h
      | ok b =>
        rw [h2] at h; cases h
        obtain ⟨o1, e1, r1⟩ := pr_ress hs k w p a.1 a.2 h1 (fun h => hn (.inl h)) i fl
          (b.1.map (fun d => { doc := d, indent := i, flat := fl }) ++ rest) st
        obtain ⟨o2, e2, r2⟩ := prs_ress hs k w ps b.1 b.2 h2 (fun h => hn (.inr h)) i fl rest
          (pr w a.1 i fl (b.1.map (fun d => { doc := d, indent := i, flat := fl }) ++ rest) st)
        refine ⟨o1 ++ o2, ?_, ?_⟩
        · rw [prs, e2, runOps_append, e1]
        · rw [markeds]; exact r1.append r2
end

/-! ### The printer state -/

/-- The printer is about to write the next visible character in the required column. -/
def Rel (m : Option Nat) (st : PSt) : Prop :=
  m = none ∨ st.pend = m ∨ (st.pend = none ∧ last (some 0) st.out = m)

theorem line_columns (s : Str) (i : Nat) (m : Option Nat) : columns m (s ++ '\n' :: spaces i) = columns m s := by
  rw [columns_append]
  show _ ++ columns (some 0) (spaces i) = _
  rw [columns_spaces, List.append_nil]

theorem line_last (s : Str) (i : Nat) (m : Option Nat) : last m (s ++ '\n' :: spaces i) = some i := by
  rw [last_append]
  show last (some 0) (spaces i) = _
  rw [last_spaces, Nat.zero_add]

theorem flush_columns (st : PSt) (m : Option Nat) : columns m st.flush.out = columns m st.out := by
  cases h : st.pend with
  | none => rw [flush_none h]
  | some i => simp only [PSt.flush, h]; exact line_columns _ _ _

theorem flush_last {m : Option Nat} {st : PSt} (h : Rel m st) : m = none ∨ last (some 0) st.flush.out = m := by
  rcases h with h | h | ⟨h, h'⟩
  · exact Or.inl h
  · cases m with
    | none => exact Or.inl rfl
    | some i =>
      right
      simp only [PSt.flush, h]
      exact line_last _ _ _
  · right
    rw [flush_none h]
    exact h'

theorem rel_flush {m : Option Nat} {st : PSt} (h : Rel m st) : Rel m st.flush := by
  rcases flush_last h with h | h
  · exact Or.inl h
  · exact Or.inr (Or.inr ⟨flush_pend st, h⟩)

theorem wanted_chrs (m : Option Nat) : ∀ n, wanted m (List.replicate (n + 1) .chr) = m :: List.replicate n none
  | 0 => rfl
  | n + 1 => by
    have := wanted_chrs none n
    rw [List.replicate_succ, wanted, this]
    rfl

theorem wanted_none : ∀ n, wanted none (List.replicate n .chr) = List.replicate n none
  | 0 => rfl
  | n + 1 => by rw [wanted_chrs]; rfl

theorem fin_chrs (m : Option Nat) : ∀ n, fin m (List.replicate (n + 1) .chr) = none
  | 0 => rfl
  | n + 1 => fin_chrs none n

theorem fin_none : ∀ n, fin none (List.replicate n .chr) = none
  | 0 => rfl
  | n + 1 => fin_chrs none n

/-- Printing a text. -/
theorem text_step {m : Option Nat} {st : PSt} (h : Rel m st) (s : Str) (n : Nat) :
    ∃ x, columns (some 0) (st.flush.putText s n).out = columns (some 0) st.out ++ x ∧ Meets x (wanted m (evT s)) ∧
      Rel (fin m (evT s)) (st.flush.putText s n) := by
  have hl := flush_last h
  have hc := flush_columns st (some 0)
  unfold PSt.putText
  split
  · rename_i hs
    obtain ⟨rfl, -⟩ := hs
    exact ⟨[], by rw [hc, List.append_nil], .nil, Or.inl rfl⟩
  · refine ⟨columns (last (some 0) st.flush.out) s, by rw [← hc]; exact columns_append _ _ _, ?_, ?_⟩
    · unfold evT
      cases s with
      | nil => exact .nil
      | cons c s =>
        cases hb : isBlank c with
        | true =>
          simp only [List.head?_cons, Option.any_some, hb, if_true, List.cons_append, List.nil_append, wanted]
          rw [wanted_none]
          exact .free (columns_length _ _)
        | false =>
          simp only [List.head?_cons, Option.any_some, hb, Bool.false_eq_true, if_false, List.nil_append]
          have h1 : c ≠ '\n' := by rintro rfl; cases hb
          have h2 : c ≠ ' ' := by rintro rfl; cases hb
          have h3 : ink (c :: s) = c :: ink s := by
            rw [ink, List.filter_cons_of_pos (by simp [hb])]; rfl
          rw [h3, List.length_cons, wanted_chrs, columns, if_neg h1, if_neg h2]
          exact .cons hl (.free (columns_length _ _))
    · cases s with
      | nil =>
        show Rel m { st.flush with out := st.flush.out ++ [], col := st.flush.col + n }
        rcases hl with hl | hl
        · exact Or.inl hl
        · exact Or.inr (Or.inr ⟨flush_pend st, by rw [List.append_nil]; exact hl⟩)
      | cons c s =>
        left
        unfold evT
        cases hb : isBlank c with
        | true =>
          simp only [List.head?_cons, Option.any_some, hb, if_true, List.cons_append, List.nil_append, fin]
          exact fin_none _
        | false =>
          simp only [List.head?_cons, Option.any_some, hb, Bool.false_eq_true, if_false, List.nil_append]
          have h3 : ink (c :: s) = c :: ink s := by
            rw [ink, List.filter_cons_of_pos (by simp [hb])]; rfl
          rw [h3, List.length_cons]
          exact fin_chrs _ _

theorem wanted_notes (m : Option Nat) : ∀ n, wanted m (List.replicate (n + 1) .note) = m :: List.replicate n none
  | 0 => rfl
  | n + 1 => by
    have := wanted_notes none n
    rw [List.replicate_succ, wanted, this]
    rfl

theorem wanted_note : ∀ n, wanted none (List.replicate n .note) = List.replicate n none
  | 0 => rfl
  | n + 1 => by rw [wanted_notes]; rfl

theorem fin_notes (m : Option Nat) : ∀ n, fin m (List.replicate (n + 1) .note) = none
  | 0 => rfl
  | n + 1 => fin_notes none n

theorem fin_note : ∀ n, fin none (List.replicate n .note) = none
  | 0 => rfl
  | n + 1 => fin_notes none n

theorem split_blanks : ∀ {s : Str}, '\n' ∉ s → ink s ≠ [] → ∃ c r, s = spaces (s.takeWhile (· == ' ')).length ++ c :: r ∧
    isBlank c = false
  | [], _, h => absurd rfl h
  | c :: s, hn, h => by
    by_cases hc : c = ' '
    · subst hc
      obtain ⟨c, r, h1, h2⟩ := split_blanks (s := s) (fun h => hn (.tail _ h)) (by simpa [ink, isBlank] using h)
      refine ⟨c, r, ?_, h2⟩
      rw [List.takeWhile_cons_of_pos (by rfl), List.length_cons]
      show _ = ' ' :: (spaces _ ++ c :: r)
      rw [← h1]
    · refine ⟨c, s, ?_, ?_⟩
      · rw [List.takeWhile_cons_of_neg (by simpa using hc)]; rfl
      · have : c ≠ '\n' := by rintro rfl; exact hn (.head _)
        simp [isBlank, hc, this]

theorem ink_spaces : ∀ (n : Nat) (s : Str), ink (spaces n ++ s) = ink s
  | 0, _ => rfl
  | n + 1, s => ink_spaces n s

/-- Printing a line of a comment. -/
theorem note_step {m : Option Nat} {st : PSt} (h : Rel m st) (s : Str) (n : Nat) :
    ∃ x, columns (some 0) (st.flush.putText s n).out = columns (some 0) st.out ++ x ∧ Meets x (wanted m (evS (.note s))) ∧
      Rel (fin m (evS (.note s))) (st.flush.putText s n) := by
  have hl := flush_last h
  have hc := flush_columns st (some 0)
  have free : ∃ x, columns (some 0) (st.flush.putText s n).out = columns (some 0) st.out ++ x ∧
      Meets x (List.replicate (ink s).length none) := by
    unfold PSt.putText
    split
    · rename_i hs
      obtain ⟨rfl, -⟩ := hs
      exact ⟨[], by rw [hc, List.append_nil], .nil⟩
    · exact ⟨columns (last (some 0) st.flush.out) s, by rw [← hc]; exact columns_append _ _ _, .free (columns_length _ _)⟩
  have loose : ∃ x, columns (some 0) (st.flush.putText s n).out = columns (some 0) st.out ++ x ∧
      Meets x (wanted m (.gap :: List.replicate (ink s).length .note)) ∧
      Rel (fin m (.gap :: List.replicate (ink s).length .note)) (st.flush.putText s n) := by
    obtain ⟨x, h1, h2⟩ := free
    exact ⟨x, h1, by rw [wanted, wanted_note]; exact h2, Or.inl (by rw [fin, fin_note])⟩
  simp only [evS]
  split
  · exact loose
  · rename_i hn
    unfold written
    split
    · rename_i hi
      rw [List.isEmpty_iff] at hi
      rw [hi] at loose
      exact loose
    · rename_i hi
      rw [List.isEmpty_iff] at hi
      obtain ⟨c, r, hs, hb⟩ := split_blanks hn hi
      have h1 : c ≠ '\n' := by rintro rfl; cases hb
      have h2 : c ≠ ' ' := by rintro rfl; cases hb
      have hp : st.flush.putText s n = { st.flush with out := st.flush.out ++ s, col := st.flush.col + n } := by
        unfold PSt.putText
        rw [if_neg]
        rintro ⟨e, -⟩
        rw [e] at hi
        exact hi rfl
      have h3 : ink s = c :: ink r := by
        rw [hs, ink_spaces, ink, List.filter_cons_of_pos (by simp [hb])]; rfl
      rw [hp]
      refine ⟨columns (last (some 0) st.flush.out) s, by rw [← hc]; exact columns_append _ _ _, ?_, ?_⟩
      · rw [wanted, h3, List.length_cons, wanted_notes]
        conv => lhs; rw [hs]
        rw [columns_append, columns_spaces, List.nil_append, columns, if_neg h1, if_neg h2]
        refine .cons ?_ (.free (columns_length _ _))
        rcases hl with rfl | hl
        · exact Or.inl rfl
        · rw [hl]
          cases m with
          | none => exact Or.inl rfl
          | some j => exact Or.inr (last_spaces _ _)
      · left
        rw [fin, h3, List.length_cons, fin_notes]

/-- Printing a comment in the same line. -/
theorem eol_step {m : Option Nat} {st : PSt} (h : Rel m st) (s : Str) (n n' : Nat) :
    ∃ x, columns (some 0) (runOps [.text [' '] n, .text s n'] st).out = columns (some 0) st.out ++ x ∧
      Meets x (wanted m (evS (.eol s))) ∧ Rel (fin m (evS (.eol s))) (runOps [.text [' '] n, .text s n'] st) := by
  obtain ⟨x, h1, h2, h3⟩ := text_step h [' '] n
  show ∃ x, columns (some 0) ((st.flush.putText [' '] n).flush.putText s n').out = _ ∧ _
  generalize st.flush.putText [' '] n = st' at *
  have hc := flush_columns st' (some 0)
  cases h2
  rw [List.append_nil] at h1
  simp only [evS, wanted, fin, wanted_note, fin_note]
  unfold PSt.putText
  split
  · rename_i hs
    obtain ⟨rfl, -⟩ := hs
    exact ⟨[], by rw [hc, h1, List.append_nil], .nil, Or.inl rfl⟩
  · exact ⟨columns (last (some 0) st'.flush.out) s, by rw [← h1, ← hc]; exact columns_append _ _ _, .free (columns_length _ _),
      Or.inl rfl⟩

/-- Printing a symbol. -/
theorem res_step {x : Mk} {o : List Op} (hx : Res x o) {m : Option Nat} {st : PSt} (h : Rel m st) :
    ∃ y, columns (some 0) (runOps o st).out = columns (some 0) st.out ++ y ∧ Meets y (wanted m (evS x)) ∧
      Rel (fin m (evS x)) (runOps o st) := by
  cases hx with
  | code s n => exact text_step h s n
  | note s n => exact note_step h s n
  | eol s n n' => exact eol_step h s n n'
  | flush => exact ⟨[], by rw [List.append_nil]; exact flush_columns _ _, .nil, rel_flush h⟩
  | pend i => exact ⟨[], (List.append_nil _).symm, .nil, Or.inl rfl⟩
  | space =>
    refine ⟨[], ?_, .nil, Or.inl rfl⟩
    show columns (some 0) (st.out ++ [' ']) = _
    rw [columns_append]; rfl
  | none => exact ⟨[], (List.append_nil _).symm, .nil, Or.inl rfl⟩
  | hard _ i => exact ⟨[], (List.append_nil _).symm, .nil, Or.inr (Or.inl rfl)⟩
  | blank i =>
    refine ⟨[], ?_, .nil, Or.inr (Or.inl rfl)⟩
    show columns (some 0) (st.out ++ ['\n']) = _
    rw [columns_append]; rfl
  | line i => exact ⟨[], (List.append_nil _).symm, .nil, Or.inr (Or.inl rfl)⟩

theorem run_step {xs : List Mk} {ops : List Op} (h : Ress xs ops) : ∀ {m : Option Nat} {st : PSt}, Rel m st →
    ∃ y, columns (some 0) (runOps ops st).out = columns (some 0) st.out ++ y ∧ Meets y (wanted m (xs.flatMap evS)) ∧
      Rel (fin m (xs.flatMap evS)) (runOps ops st) := by
  induction h with
  | nil => intro m st h; exact ⟨[], (List.append_nil _).symm, .nil, h⟩
  | @cons x xs o os hx _ ih =>
    intro m st h
    obtain ⟨y1, e1, m1, r1⟩ := res_step hx h
    obtain ⟨y2, e2, m2, r2⟩ := ih r1
    refine ⟨y1 ++ y2, ?_, ?_, ?_⟩
    · rw [runOps_append, e2, e1, List.append_assoc]
    · rw [List.flatMap_cons, wanted_append]; exact m1.append m2
    · rw [List.flatMap_cons, fin_append, runOps_append]; exact r2

/-- The columns of the layout of a program. -/
theorem layout_columns {ro : Comment → Role} {cm : CMap} (hs : Roles ro cm) {k : Nat} {p : Prog} {d : Doc} {l : List Comment}
    (h : p.build k cm = .ok (d, l)) (hn : Sym.txt ['\n'] ∉ Notes.syms ro cm p) (w : Nat) :
    Meets (columns (some 0) (layout w d)) (wanted (some 0) (ev ro cm k 0 p)) := by
  obtain ⟨ops, h1, h2⟩ := pr_ress hs k w p d l h hn 0 false [] PSt.init
  obtain ⟨y, e, m, -⟩ := run_step h2 (m := some 0) (st := PSt.init) (Or.inr (Or.inr ⟨rfl, rfl⟩))
  unfold layout
  rw [h1, flush_columns, e]
  exact m

end Afmt.Levels
