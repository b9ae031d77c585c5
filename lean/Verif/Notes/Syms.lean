import Verif.Lines.Syms

/-!
# Line breaks of the output of programs with comments between members

The counterpart of `Verif.Lines.Syms` for programs whose comments are in lines of their own or end the line of the member
before them.  Every comment has a role: whether a line break is written before and after it, or whether it continues the
line.
-/

namespace Afmt.Notes
open Afmt.Gram
open Afmt.Lines (gaps tail clean cleanL cleanR gaps_append tail_append gaps_length gaps_blank gaps_cleanL tail_blank tail_cleanR
  All2 flush_pend flush_none gaps_flush tail_flush putText_out putText_pend base)

/-! ### Roles of comments -/

/-- What is before a comment: nothing, a line break (with a blank line), or a blank in the same line. -/
inductive Lead where
  | none
  | sep (blank : Bool)
  | eol
  deriving DecidableEq

/-- What is before and after a comment. -/
structure Role where
  lead : Lead
  trail : Option Bool
  deriving DecidableEq

/-- The lines of a comment. -/
def linesOf (c : Comment) : List Str :=
  match c.type with
  | .line => [c.value]
  | .block => blockLines c.value

/-- A comment that can be printed: its first and last lines have visible characters, and if it is a line comment it is one
line. -/
structure Sound (c : Comment) : Prop where
  first : ∃ l ls, linesOf c = l :: ls ∧ ink l ≠ []
  last : ∃ l, (linesOf c).getLast? = some l ∧ ink l ≠ []
  lines : ∀ l ∈ linesOf c, '\n' ∉ l

/-! ### Symbols -/

/-- Line breaks: possible ones, certain ones and those inside of comments. -/
inductive Br where
  | soft
  | may
  | hard
  | cut
  deriving DecidableEq

/-- A text, a point where a pending line break is written, a line break, the line break between two members, or
a comment in the same line. -/
inductive Sym where
  | txt (s : Str)
  | flush
  | br (k : Br)
  | sep (blank : Bool)
  | eol (s : Str)

/-- Lines with line breaks between them. -/
def lineSyms : List Str → List Sym
  | [] => []
  | [l] => [.txt l]
  | l :: ls => .txt l :: .br .cut :: lineSyms ls

/-- The text of a comment. -/
def textSyms (c : Comment) : List Sym :=
  match c.type with
  | .line => [.txt c.value, .br .cut]
  | .block => lineSyms (blockLines c.value)

/-- A comment with the line breaks around it. -/
def comSyms (r : Role) (c : Comment) : List Sym :=
  (match r.lead with
    | .none => textSyms c
    | .sep b => .sep b :: textSyms c
    | .eol => [.eol c.value, .br .cut]) ++
  (match r.trail with
    | none => []
    | some b => [.sep b])

/-- The bucket of a node. -/
def bucketOf (cm : CMap) (id : Nat) : Bucket := (cm.get? id).getD Bucket.empty

theorem bucketOf_get {cm : CMap} {id : Nat} {b : Bucket} (h : getBucket cm id = .ok b) : bucketOf cm id = b := by
  unfold getBucket at h
  unfold bucketOf
  cases hg : cm.get? id with
  | none => rw [hg] at h; cases h
  | some x => rw [hg] at h; cases h; rfl

mutual
/-- Symbols of a program. -/
def syms (ro : Comment → Role) (cm : CMap) : Prog → List Sym
  | .txt s => [.txt s]
  | .nl => [.br .hard]
  | .softline => [.br .soft]
  | .maybeline => [.br .may]
  | .forceBreak => []
  | .sep b => [.sep b]
  | .concat ps => symss ro cm ps
  | .group p => .flush :: syms ro cm p
  | .indent p | .dedent p => syms ro cm p
  | .pre id => (bucketOf cm id).pre.flatMap (fun c => comSyms (ro c) c)
  | .post id => (bucketOf cm id).post.flatMap (fun c => comSyms (ro c) c)
  | .dangling _ | .rootDangling _ => []
  | .punct p => if bucketOf cm p.id = Bucket.empty then [.txt p.text] else [.txt ['\n']]
  | .ifDangling _ _ q => syms ro cm q
  | .fail _ => []
def symss (ro : Comment → Role) (cm : CMap) : List Prog → List Sym
  | [] => []
  | p :: ps => syms ro cm p ++ symss ro cm ps
end

theorem symss_append (ro : Comment → Role) (cm : CMap) (a b : List Prog) : symss ro cm (a ++ b) = symss ro cm a ++ symss ro cm b := by
  induction a with
  | nil => simp [symss]
  | cons p a ih => simp [symss, ih]

/-- The roles of the comments before a node. -/
def PreRoles (ro : Comment → Role) : Bool → List Comment → Prop
  | _, [] => True
  | first, c :: cs =>
    c.meta'.hasLeadingContent = false ∧ c.meta'.hasTrailingContent = false ∧
    (ro c).lead = (if first then .none else .sep c.meta'.hasEmptyLineAbove) ∧
    (ro c).trail = (if cs = [] then some c.meta'.hasEmptyLineBelow else none) ∧ PreRoles ro false cs

/-- The roles of the comments after a node. -/
def PostRoles (ro : Comment → Role) : List Comment → Prop
  | [] => True
  | c :: cs =>
    c.meta'.hasTrailingContent = false ∧ (ro c).trail = none ∧
    (ro c).lead = (if c.meta'.hasLeadingContent then .eol else .sep c.meta'.hasEmptyLineAbove) ∧
    (c.meta'.hasLeadingContent = true → c.type = .line) ∧ PostRoles ro cs

/-- The comments of the map have the roles. -/
structure Roles (ro : Comment → Role) (cm : CMap) : Prop where
  pre : ∀ id, PreRoles ro true (bucketOf cm id).pre
  post : ∀ id, PostRoles ro (bucketOf cm id).post
  dangling : ∀ id, (bucketOf cm id).dangling = []

/-! ### What the printer does with symbols -/

/-- Operations a symbol may stand for. -/
inductive Res : Sym → List Op → Prop
  | txt (s n) : Res (.txt s) [.text s n]
  | flush : Res .flush [.flush]
  | pend (b i) : Res (.br b) [.pend i]
  | space : Res (.br .soft) [.space]
  | none : Res (.br .may) []
  | blank (i) : Res (.sep true) [.bare, .pend i]
  | line (i) : Res (.sep false) [.pend i]
  | eol (s n n') : Res (.eol s) [.text [' '] n, .text s n']

inductive Ress : List Sym → List Op → Prop
  | nil : Ress [] []
  | cons {x xs o os} : Res x o → Ress xs os → Ress (x :: xs) (o ++ os)

theorem Ress.one {x : Sym} {o : List Op} (h : Res x o) : Ress [x] o := by
  have := Ress.cons h .nil
  simpa using this

theorem Ress.append {a b : List Sym} {o o' : List Op} (h : Ress a o) (h' : Ress b o') : Ress (a ++ b) (o ++ o') := by
  induction h with
  | nil => exact h'
  | cons hx _ ih => rw [List.append_assoc]; exact .cons hx ih

/-- Printing the documents performs operations the symbols stand for. -/
def Pr (ds : List Doc) (xs : List Sym) : Prop :=
  ∀ (w i : Nat) (fl : Bool) (rest : List Chunk) (st : PSt), ∃ ops, prs w ds i fl rest st = runOps ops st ∧ Ress xs ops

theorem Pr.nil : Pr [] [] := fun _ _ _ _ _ => ⟨[], by simp [prs], .nil⟩

theorem Pr.cons {d : Doc} {ds : List Doc} {xs ys : List Sym} (h : ∀ (w i : Nat) (fl : Bool) (rest : List Chunk) (st : PSt), ∃ ops,
    pr w d i fl rest st = runOps ops st ∧ Ress xs ops) (h' : Pr ds ys) : Pr (d :: ds) (xs ++ ys) := by
  intro w i fl rest st
  obtain ⟨o1, e1, r1⟩ := h w i fl (ds.map (fun d => { doc := d, indent := i, flat := fl }) ++ rest) st
  obtain ⟨o2, e2, r2⟩ := h' w i fl rest (pr w d i fl (ds.map (fun d => { doc := d, indent := i, flat := fl }) ++ rest) st)
  exact ⟨o1 ++ o2, by rw [prs, e2, runOps_append, e1], r1.append r2⟩

theorem Pr.append {ds ds' : List Doc} {xs ys : List Sym} (h : Pr ds xs) (h' : Pr ds' ys) : Pr (ds ++ ds') (xs ++ ys) := by
  intro w i fl rest st
  obtain ⟨o1, e1, r1⟩ := h w i fl (ds'.map (fun d => { doc := d, indent := i, flat := fl }) ++ rest) st
  obtain ⟨o2, e2, r2⟩ := h' w i fl rest (prs w ds i fl (ds'.map (fun d => { doc := d, indent := i, flat := fl }) ++ rest) st)
  refine ⟨o1 ++ o2, ?_, r1.append r2⟩
  rw [runOps_append, ← e1, ← e2]
  clear e1 e2 r1 r2 o1 o2 h h'
  induction ds generalizing st with
  | nil => simp [prs]
  | cons d ds ih => simp only [List.cons_append, prs, List.map_append, List.append_assoc]; exact ih _

theorem Pr.concat {ds : List Doc} {xs : List Sym} (h : Pr ds xs) (w i : Nat) (fl : Bool) (rest : List Chunk) (st : PSt) :
    ∃ ops, pr w (.concat ds) i fl rest st = runOps ops st ∧ Ress xs ops := by
  rw [pr]; exact h w i fl rest st

theorem pr_txt (s : Str) (w i : Nat) (fl : Bool) (rest : List Chunk) (st : PSt) :
    ∃ ops, pr w (Afmt.txt s) i fl rest st = runOps ops st ∧ Ress [.txt s] ops :=
  ⟨_, by simp [Afmt.txt, pr, Op.run]; rfl, .one (.txt s _)⟩
theorem pr_nl {k : Br} (w i : Nat) (fl : Bool) (rest : List Chunk) (st : PSt) :
    ∃ ops, pr w Afmt.nl i fl rest st = runOps ops st ∧ Ress [.br k] ops :=
  ⟨[.pend i], by simp [Afmt.nl, pr, Op.run], .one (.pend _ i)⟩
theorem pr_sep (b : Bool) (w i : Nat) (fl : Bool) (rest : List Chunk) (st : PSt) :
    ∃ ops, pr w (if b then Afmt.emptyNewLine else Afmt.nl) i fl rest st = runOps ops st ∧ Ress [.sep b] ops := by
  cases b
  · exact ⟨[.pend i], by simp [Afmt.nl, pr, Op.run], .one (.line i)⟩
  · exact ⟨[.bare, .pend i], by simp [emptyNewLine, pr, prs, Op.run], .one (.blank i)⟩
theorem pr_force (w i : Nat) (fl : Bool) (rest : List Chunk) (st : PSt) :
    ∃ ops, pr w .forceBreak i fl rest st = runOps ops st ∧ Ress [] ops :=
  ⟨[], by simp [pr], .nil⟩

theorem Pr_lines : ∀ (ls : List Str), Pr (linesDoc ls) (lineSyms ls)
  | [] => .nil
  | [l] => .cons (pr_txt l) .nil
  | l :: l' :: ls => .cons (pr_txt l) (.cons pr_nl (Pr_lines (l' :: ls)))

theorem pr_comment (c : Comment) (w i : Nat) (fl : Bool) (rest : List Chunk) (st : PSt) :
    ∃ ops, pr w c.build i fl rest st = runOps ops st ∧ Ress (textSyms c) ops := by
  unfold Comment.build textSyms
  cases c.type with
  | line => exact Pr.concat (.cons (pr_txt _) (.cons pr_nl .nil)) w i fl rest st
  | block => exact Pr.concat (Pr_lines _) w i fl rest st

theorem Pr_post {ro : Comment → Role} : ∀ {cs : List Comment}, PostRoles ro cs →
    Pr (postDocs cs) (cs.flatMap (fun c => comSyms (ro c) c))
  | [], _ => .nil
  | c :: cs, h => by
    obtain ⟨h1, h2, h3, h4, h5⟩ := h
    have ih := Pr_post h5
    rw [postDocs, List.flatMap_cons]
    have ht : postTrail c = [] := by simp [postTrail, h1]
    rw [ht, List.nil_append, comSyms, h2, h3]
    unfold postLead
    cases hl : c.meta'.hasLeadingContent with
    | false =>
      rw [List.append_nil]
      have := Pr.cons (ds := c.build :: postDocs cs) (pr_sep c.meta'.hasEmptyLineAbove) (.cons (pr_comment c) ih)
      simpa using this
    | true =>
      rw [List.append_nil]
      have hc := h4 hl
      refine Pr.append (ds := [txt [' '], c.build]) ?_ ih
      have hb : c.build = .concat [txt c.value, nl] := by simp [Comment.build, hc]
      rw [hb]
      intro w i fl rest st
      exact ⟨[.text [' '] (byteLen [' ']), .text c.value (byteLen c.value)] ++ ([.pend i] ++ []),
        by simp [prs, pr, Afmt.txt, Afmt.nl, Op.run, byteLen], .cons (.eol _ _ _) (.cons (.pend _ i) .nil)⟩

theorem Pr_pre {ro : Comment → Role} : ∀ {cs : List Comment} {first : Bool}, PreRoles ro first cs →
    Pr (preDocs first cs) (cs.flatMap (fun c => comSyms (ro c) c))
  | [], _, _ => .nil
  | c :: cs, first, h => by
    obtain ⟨h1, h2, h3, h4, h5⟩ := h
    have ih := Pr_pre h5
    rw [preDocs, List.flatMap_cons]
    refine Pr.append ?_ ih
    rw [h1, h2, comSyms, h3, h4]
    simp only [Bool.false_eq_true, if_false]
    have t : Pr (if cs = [] then (if c.meta'.hasEmptyLineBelow = true then [emptyNewLine] else [nl]) else [])
        (match (if cs = [] then some c.meta'.hasEmptyLineBelow else none) with
          | none => []
          | some b => [.sep b]) := by
      by_cases hc : cs = []
      · simp only [hc, if_true]
        have := Pr.cons (pr_sep c.meta'.hasEmptyLineBelow) .nil
        cases hb : c.meta'.hasEmptyLineBelow <;> simpa [hb] using this
      · simp only [hc, if_false]; exact .nil
    refine Pr.append ?_ t
    cases first with
    | true =>
      have := Pr.cons pr_force (.cons (pr_comment c) .nil)
      simpa using this
    | false =>
      have := Pr.cons pr_force (.cons (pr_sep c.meta'.hasEmptyLineAbove) (.cons (pr_comment c) .nil))
      cases hb : c.meta'.hasEmptyLineAbove <;> simpa [hb] using this

mutual
/-- Printing a program performs operations its symbols stand for, unless the comments of a punctuation are in the way. -/
theorem pr_ress {ro : Comment → Role} {cm : CMap} (hs : Roles ro cm) (k w : Nat) : ∀ (p : Prog) (d : Doc) (l : List Comment),
    p.build k cm = .ok (d, l) → Sym.txt ['\n'] ∉ syms ro cm p → ∀ (i : Nat) (fl : Bool) (rest : List Chunk) (st : PSt),
    ∃ ops, pr w d i fl rest st = runOps ops st ∧ Ress (syms ro cm p) ops
  | .txt s, d, l, h, _, i, fl, rest, st => by
    rw [Prog.build] at h; cases h
    exact pr_txt s w i fl rest st
  | .nl, d, l, h, _, i, fl, rest, st => by
    rw [Prog.build] at h; cases h
    exact pr_nl w i fl rest st
  | .softline, d, l, h, _, i, fl, rest, st => by
    rw [Prog.build] at h; cases h
    cases fl
    · exact ⟨[.pend i], by simp [pr, Op.run], .one (.pend _ i)⟩
    · exact ⟨[.space], by simp [pr, Op.run], .one .space⟩
  | .maybeline, d, l, h, _, i, fl, rest, st => by
    rw [Prog.build] at h; cases h
    cases fl
    · exact ⟨[.pend i], by simp [pr, Op.run], .one (.pend _ i)⟩
    · exact ⟨[], by simp [pr], .one .none⟩
  | .forceBreak, d, l, h, _, i, fl, rest, st => by
    rw [Prog.build] at h; cases h
    exact ⟨[], by simp [pr], .nil⟩
  | .sep b, d, l, h, _, i, fl, rest, st => by
    rw [Prog.build] at h; cases h
    exact pr_sep b w i fl rest st
  | .concat ps, d, l, h, hn, i, fl, rest, st => by
    rw [Prog.build] at h
    cases hb : Prog.builds k cm ps with
    | error e => rw [hb] at h; cases h
    | ok a =>
      rw [hb] at h; cases h
      rw [pr, syms]
      exact prs_ress hs k w ps a.1 a.2 hb (by rwa [syms] at hn) i fl rest st
  | .group p, d, l, h, hn, i, fl, rest, st => by
    rw [Prog.build] at h
    cases hb : Prog.build k cm p with
    | error e => rw [hb] at h; cases h
    | ok a =>
      rw [hb] at h; cases h
      have key : ∀ fl', ∃ ops, pr w a.1 i fl' rest st.flush = runOps ops st ∧ Ress (syms ro cm (.group p)) ops := by
        intro fl'
        obtain ⟨ops, h1, h2⟩ := pr_ress hs k w p a.1 a.2 hb (fun h => hn (by rw [syms]; exact .tail _ h)) i fl' rest st.flush
        refine ⟨.flush :: ops, by rw [h1]; simp [Op.run], ?_⟩
        rw [syms]
        exact .cons .flush h2
      simp only [Afmt.group, pr]
      split
      · exact key true
      · split
        · exact key true
        · exact key fl
  | .indent p, d, l, h, hn, i, fl, rest, st => by
    rw [Prog.build] at h
    cases hb : Prog.build k cm p with
    | error e => rw [hb] at h; cases h
    | ok a =>
      rw [hb] at h; cases h
      rw [syms, indentDoc, pr]
      exact pr_ress hs k w p a.1 a.2 hb (by rwa [syms] at hn) _ fl rest st
  | .dedent p, d, l, h, hn, i, fl, rest, st => by
    rw [Prog.build] at h
    cases hb : Prog.build k cm p with
    | error e => rw [hb] at h; cases h
    | ok a =>
      rw [hb] at h; cases h
      rw [syms, dedentDoc, pr]
      exact pr_ress hs k w p a.1 a.2 hb (by rwa [syms] at hn) _ fl rest st
  | .pre id, d, l, h, _, i, fl, rest, st => by
    rw [Prog.build] at h
    cases hb : getBucket cm id with
    | error e => rw [hb] at h; cases h
    | ok b =>
      rw [hb] at h; cases h
      have := hs.pre id
      rw [syms, bucketOf_get hb] at *
      exact Pr.concat (Pr_pre this) w i fl rest st
  | .post id, d, l, h, _, i, fl, rest, st => by
    rw [Prog.build] at h
    cases hb : getBucket cm id with
    | error e => rw [hb] at h; cases h
    | ok b =>
      rw [hb] at h; cases h
      have := hs.post id
      rw [syms, bucketOf_get hb] at *
      exact Pr.concat (Pr_post this) w i fl rest st
  | .rootDangling id, d, l, h, _, i, fl, rest, st => by
    rw [Prog.build] at h
    cases hb : getBucket cm id with
    | error e => rw [hb] at h; cases h
    | ok b =>
      rw [hb] at h; cases h
      have := hs.dangling id
      rw [bucketOf_get hb] at this
      rw [this]; exact ⟨[], by simp [pr, prs], .nil⟩
  | .dangling id, d, l, h, _, i, fl, rest, st => by
    rw [Prog.build] at h
    cases hb : getBucket cm id with
    | error e => rw [hb] at h; cases h
    | ok b =>
      rw [hb] at h
      have := hs.dangling id
      rw [bucketOf_get hb] at this
      dsimp only at h
      rw [if_pos this] at h
      cases h
  | .punct p, d, l, h, hn, i, fl, rest, st => by
    rw [Prog.build] at h
    cases hb : getBucket cm p.id with
    | error e => rw [hb] at h; cases h
    | ok b =>
      rw [hb] at h; cases h
      rw [syms] at hn ⊢
      by_cases he : bucketOf cm p.id = Bucket.empty
      · rw [if_pos he]
        rw [bucketOf_get hb] at he
        subst he
        have : puncDocs Bucket.empty p = [Afmt.txt p.text] := by simp [puncDocs, Bucket.empty, postDocs]
        rw [this]
        exact Pr.concat (.cons (pr_txt _) .nil) w i fl rest st
      · rw [if_neg he] at hn
        exact absurd (.head _) hn
  | .ifDangling id p q, d, l, h, hn, i, fl, rest, st => by
    rw [Prog.build] at h
    cases hb : getBucket cm id with
    | error e => rw [hb] at h; cases h
    | ok b =>
      rw [hb] at h
      have := hs.dangling id
      rw [bucketOf_get hb] at this
      dsimp only at h
      rw [if_neg (by simp [this])] at h
      rw [syms]; exact pr_ress hs k w q d l h (by rwa [syms] at hn) i fl rest st
  | .fail e, d, l, h, _, i, fl, rest, st => by rw [Prog.build] at h; cases h
theorem prs_ress {ro : Comment → Role} {cm : CMap} (hs : Roles ro cm) (k w : Nat) : ∀ (ps : List Prog) (ds : List Doc) (l : List Comment),
    Prog.builds k cm ps = .ok (ds, l) → Sym.txt ['\n'] ∉ symss ro cm ps → ∀ (i : Nat) (fl : Bool) (rest : List Chunk) (st : PSt),
    ∃ ops, prs w ds i fl rest st = runOps ops st ∧ Ress (symss ro cm ps) ops
  | [], ds, l, h, _, i, fl, rest, st => by
    rw [Prog.builds] at h; cases h
    exact ⟨[], by simp [prs], .nil⟩
  | p :: ps, ds, l, h, hn, i, fl, rest, st => by
    rw [Prog.builds] at h
    rw [symss, List.mem_append] at hn
    cases h1 : Prog.build k cm p with
    | error e => rw [h1] at h; cases h
    | ok a =>
      rw [h1] at h
      cases h2 : Prog.builds k cm ps with
      | error e => rw [h2] at h; cases h
      | ok b =>
        rw [h2] at h; cases h
        obtain ⟨o1, e1, r1⟩ := pr_ress hs k w p a.1 a.2 h1 (fun h => hn (.inl h)) i fl
          (b.1.map (fun d => { doc := d, indent := i, flat := fl }) ++ rest) st
        obtain ⟨o2, e2, r2⟩ := prs_ress hs k w ps b.1 b.2 h2 (fun h => hn (.inr h)) i fl rest
          (pr w a.1 i fl (b.1.map (fun d => { doc := d, indent := i, flat := fl }) ++ rest) st)
        refine ⟨o1 ++ o2, ?_, ?_⟩
        · rw [prs, e2, runOps_append, e1]
        · rw [symss]; exact r1.append r2
end

/-! ### The abstract machine -/

/-- `I`: after a visible character; `P`: a line break may be pending; `F`: anything may have been written since the last
visible character, but no line break between members; `S`: a line break between members is pending; `G`: such a line
break is pending or written. -/
inductive St where
  | I | P | F | S | G | bad
  deriving DecidableEq

def St.rank : St → Nat
  | .I => 0 | .P => 1 | .F => 2 | .S => 3 | .G => 4 | .bad => 5

instance : LE St := ⟨fun a b => a.rank ≤ b.rank⟩
instance (a b : St) : Decidable (a ≤ b) := inferInstanceAs (Decidable (a.rank ≤ b.rank))

def fl : St → St
  | .I => .I | .P => .F | .F => .F | .S => .G | .G => .G | .bad => .bad

def brk : St → St
  | .I => .P | .P => .P | .F => .F | .S => .S | .G => .bad | .bad => .bad

def sp : St → St
  | .I => .S | .P => .S | .F => .bad | .S => .bad | .G => .bad | .bad => .bad

def tx : St → St
  | .bad => .bad
  | _ => .I

def step (a : St) : Sym → St
  | .txt s => if clean s = true then (if ink s = [] then fl a else tx a) else .bad
  | .flush => fl a
  | .br _ => brk a
  | .sep _ => sp a
  | .eol s => if a = .I ∧ clean s = true ∧ ink s ≠ [] ∧ '\n' ∉ s then .I else .bad

def run (a : St) : List Sym → St
  | [] => a
  | x :: xs => run (step a x) xs

theorem run_append (a : St) (xs ys : List Sym) : run a (xs ++ ys) = run (run a xs) ys := by
  induction xs generalizing a with
  | nil => rfl
  | cons x xs ih => exact ih _

theorem St.le_refl (a : St) : a ≤ a := Nat.le_refl _
theorem St.le_trans {a b c : St} (h : a ≤ b) (h' : b ≤ c) : a ≤ c := Nat.le_trans h h'

theorem fl_mono {a b : St} (h : a ≤ b) : fl a ≤ fl b := by revert h; cases a <;> cases b <;> decide
theorem brk_mono {a b : St} (h : a ≤ b) : brk a ≤ brk b := by revert h; cases a <;> cases b <;> decide
theorem sp_mono {a b : St} (h : a ≤ b) : sp a ≤ sp b := by revert h; cases a <;> cases b <;> decide
theorem tx_mono {a b : St} (h : a ≤ b) : tx a ≤ tx b := by revert h; cases a <;> cases b <;> decide

theorem step_mono {a b : St} (h : a ≤ b) (x : Sym) : step a x ≤ step b x := by
  cases x with
  | txt s =>
    simp only [step]
    split
    · split
      · exact fl_mono h
      · exact tx_mono h
    · exact St.le_refl _
  | flush => exact fl_mono h
  | br => exact brk_mono h
  | sep b => exact sp_mono h
  | eol s =>
    simp only [step]
    split
    · exact Nat.zero_le _
    · rename_i hx
      split
      · rename_i hy
        refine absurd ⟨?_, hy.2⟩ hx
        have := hy.1
        subst this
        revert h; cases a <;> decide
      · exact St.le_refl _

theorem run_mono {a b : St} (h : a ≤ b) (xs : List Sym) : run a xs ≤ run b xs := by
  induction xs generalizing a b with
  | nil => exact h
  | cons x xs ih => exact ih (step_mono h x)

theorem run_bad (xs : List Sym) : run .bad xs = .bad := by
  induction xs with
  | nil => rfl
  | cons x xs ih =>
    have : step .bad x = .bad := by
      cases x with
      | txt s => simp only [step]; split <;> (try split) <;> rfl
      | eol s => simp [step]
      | _ => rfl
    rw [run, this, ih]

/-! ### What the machine says about the output -/

/-- For every visible character of the symbols the member break since the last one, if any. -/
def marks (m : Option Nat) : List Sym → List (Option Nat)
  | [] => []
  | .txt s :: r => if ink s = [] then marks m r else m :: (List.replicate ((ink s).length - 1) none ++ marks none r)
  | .flush :: r | .br _ :: r => marks m r
  | .sep b :: r => marks (some (base b + 1)) r
  | .eol s :: r => List.replicate (ink s).length (some 0) ++ marks none r

/-- The line breaks required by a mark. -/
def Fits (g : Nat) : Option Nat → Prop
  | none => True
  | some b => g = b

theorem All2_free {l : List Nat} : All2 Fits l (List.replicate l.length none) := by
  induction l with
  | nil => exact .nil
  | cons a l ih => exact .cons trivial ih

/-- The abstract state describes the printer state. -/
def Rel (a : St) (m : Option Nat) (st : PSt) : Prop :=
  match a with
  | .I => m = none ∧ tail 0 st.out = 0 ∧ st.pend = none
  | .P => m = none ∧ tail 0 st.out = 0
  | .F => m = none
  | .S => ∃ b, m = some (base b + 1) ∧ st.pend.isSome = true ∧ tail 0 st.out = base b
  | .G => ∃ b, m = some (base b + 1) ∧ ((st.pend.isSome = true ∧ tail 0 st.out = base b) ∨
      (st.pend = none ∧ tail 0 st.out = base b + 1))
  | .bad => False

theorem rel_flush {a : St} {m : Option Nat} {st : PSt} (h : Rel a m st) : Rel (fl a) m st.flush := by
  cases a with
  | I => rw [flush_none h.2.2]; exact h
  | P => exact h.1
  | F => exact h
  | S =>
    obtain ⟨b, h1, h2, h3⟩ := h
    obtain ⟨i, hi⟩ := Option.isSome_iff_exists.1 h2
    exact ⟨b, h1, Or.inr ⟨flush_pend st, by rw [tail_flush hi, h3]⟩⟩
  | G =>
    obtain ⟨b, h1, ⟨h2, h3⟩ | ⟨h2, h3⟩⟩ := h
    · obtain ⟨i, hi⟩ := Option.isSome_iff_exists.1 h2
      exact ⟨b, h1, Or.inr ⟨flush_pend st, by rw [tail_flush hi, h3]⟩⟩
    · rw [flush_none h2]; exact ⟨b, h1, Or.inr ⟨h2, h3⟩⟩
  | bad => exact h

/-- After writing the pending line break, a member break has exactly its newlines. -/
theorem rel_fits {a : St} {m : Option Nat} {st : PSt} (h : Rel a m st) : Fits (tail 0 st.flush.out) m := by
  cases a with
  | I => rw [h.1]; trivial
  | P => rw [h.1]; trivial
  | F => rw [show m = none from h]; trivial
  | S =>
    obtain ⟨b, h1, h2, h3⟩ := h
    obtain ⟨i, hi⟩ := Option.isSome_iff_exists.1 h2
    rw [h1, tail_flush hi, h3]; rfl
  | G =>
    obtain ⟨b, h1, ⟨h2, h3⟩ | ⟨h2, h3⟩⟩ := h
    · obtain ⟨i, hi⟩ := Option.isSome_iff_exists.1 h2
      rw [h1, tail_flush hi, h3]; rfl
    · rw [flush_none h2, h1, h3]; rfl
  | bad => exact h.elim

theorem rel_put {a : St} {m : Option Nat} {st st' : PSt} (h : Rel a m st) (hp : st'.pend = st.pend)
    (ht : tail 0 st'.out = tail 0 st.out) : Rel a m st' := by
  cases a <;> simp only [Rel] at h ⊢ <;> simpa only [hp, ht] using h

theorem gaps_row {s : Str} (h : '\n' ∉ s) : gaps 0 s = List.replicate (ink s).length 0 := by
  induction s with
  | nil => rfl
  | cons c s ih =>
    simp only [List.mem_cons, not_or] at h
    have hc : c ≠ '\n' := fun e => h.1 e.symm
    simp only [gaps, hc, if_false]
    split
    · rename_i hb; subst hb; simpa [ink, isBlank] using ih h.2
    · rename_i hb
      have : (!isBlank c) = true := by simp [isBlank, hc, hb]
      simp only [ink] at ih ⊢
      rw [List.filter_cons_of_pos (by exact this), List.length_cons, List.replicate_succ, ih h.2]

theorem zeros : ∀ (n : Nat), All2 Fits (List.replicate n 0) (List.replicate n (some 0))
  | 0 => .nil
  | n + 1 => .cons rfl (zeros n)

/-- The output agrees with the marks of the symbols printed, as long as the machine does not go bad. -/
theorem run_fits {xs : List Sym} {ops : List Op} (h : Ress xs ops) : ∀ {a : St} {m : Option Nat} {st : PSt}
    {ms : List (Option Nat)}, Rel a m st → All2 Fits (gaps 0 st.out) ms → run a xs ≠ .bad →
    All2 Fits (gaps 0 (runOps ops st).out) (ms ++ marks m xs) := by
  induction h with
  | nil => intro a m st ms _ h2 _; simpa [marks] using h2
  | @cons x xs o os hx hr ih =>
    intro a m st ms h1 h2 h3
    rw [runOps_append]
    have hb : step a x ≠ .bad := by
      intro e; rw [run, e, run_bad] at h3; exact h3 rfl
    rw [run] at h3
    cases hx with
    | txt s n =>
      simp only [step] at h3 hb
      split at h3
      · rename_i hc
        rw [if_pos hc] at hb
        simp only [clean, Bool.and_eq_true] at hc
        simp only [runOps_cons, runOps_nil, Op.run]
        split at h3
        · rename_i hi
          rw [if_pos hi] at hb
          rw [marks, if_pos hi]
          have e1 : gaps 0 (st.flush.putText s n).out = gaps 0 st.out := by
            unfold PSt.putText
            split
            · exact gaps_flush st
            · dsimp only; rw [gaps_append, gaps_blank hi, List.append_nil]; exact gaps_flush st
          have e2 : tail 0 (st.flush.putText s n).out = tail 0 st.flush.out := by
            unfold PSt.putText
            split
            · rfl
            · dsimp only; rw [tail_append, tail_blank hc.1 hi]
          exact ih (rel_put (rel_flush h1) (putText_pend _ _ _) e2) (by rw [e1]; exact h2) h3
        · rename_i hi
          rw [if_neg hi] at hb
          rw [marks, if_neg hi]
          obtain ⟨g, hg⟩ := gaps_cleanL hc.1 hi (tail 0 st.flush.out)
          have hl : g.length = (ink s).length - 1 := by
            have := gaps_length s (tail 0 st.flush.out)
            rw [hg] at this; simp at this; omega
          have e1 : gaps 0 (st.flush.putText s n).out = gaps 0 st.out ++ (tail 0 st.flush.out :: g) := by
            rw [putText_out _ _ _ hi, gaps_append, hg, gaps_flush]
          have e2 : tail 0 (st.flush.putText s n).out = 0 := by
            rw [putText_out _ _ _ hi, tail_append]; exact tail_cleanR hc.2 hi _
          have htx : tx a = .I := by cases a <;> first | rfl | exact absurd rfl hb
          rw [htx] at h3
          have := ih (a := .I) (m := none) (st := st.flush.putText s n)
            (ms := ms ++ (m :: List.replicate ((ink s).length - 1) none))
            ⟨rfl, e2, by rw [putText_pend, flush_pend]⟩
            (by rw [e1]; exact All2.append h2 (.cons (rel_fits h1) (by rw [← hl]; exact All2_free))) h3
          simpa using this
      · exact absurd (run_bad xs) h3
    | flush =>
      simp only [runOps_cons, runOps_nil, Op.run, marks]
      exact ih (rel_flush h1) (by rw [gaps_flush]; exact h2) h3
    | pend b i =>
      simp only [runOps_cons, runOps_nil, Op.run, marks]
      refine ih (a := brk a) ?_ h2 h3
      cases a with
      | I => exact ⟨h1.1, h1.2.1⟩
      | P => exact h1
      | F => exact h1
      | S => obtain ⟨b, e1, _, e3⟩ := h1; exact ⟨b, e1, rfl, e3⟩
      | G => exact absurd rfl hb
      | bad => exact absurd rfl hb
    | space =>
      simp only [runOps_cons, runOps_nil, Op.run, marks]
      have e1 : gaps 0 st.putSpace.out = gaps 0 st.out := by
        simp only [PSt.putSpace]; rw [gaps_append]; simp [gaps]
      have e2 : tail 0 st.putSpace.out = tail 0 st.out := by
        simp only [PSt.putSpace]; rw [tail_append]; simp [tail]
      refine ih (a := brk a) (rel_put (st := st) ?_ rfl e2) (by rw [e1]; exact h2) h3
      cases a with
      | I => exact ⟨h1.1, h1.2.1⟩
      | P => exact h1
      | F => exact h1
      | S => exact h1
      | G => exact absurd rfl hb
      | bad => exact absurd rfl hb
    | none =>
      simp only [runOps_nil, marks]
      refine ih (a := brk a) ?_ h2 h3
      cases a with
      | I => exact ⟨h1.1, h1.2.1⟩
      | P => exact h1
      | F => exact h1
      | S => exact h1
      | G => exact absurd rfl hb
      | bad => exact absurd rfl hb
    | blank i =>
      simp only [runOps_cons, runOps_nil, Op.run, marks]
      have e1 : gaps 0 st.bareNewline.out = gaps 0 st.out := by
        simp only [PSt.bareNewline]; rw [gaps_append]; simp [gaps]
      have e2 : tail 0 st.bareNewline.out = tail 0 st.out + 1 := by
        simp only [PSt.bareNewline]; rw [tail_append]; simp [tail]
      refine ih (a := sp a) ?_ (by rw [← e1] at h2; exact h2) h3
      cases a with
      | I => exact ⟨true, rfl, rfl, e2.trans (by rw [h1.2.1]; rfl)⟩
      | P => exact ⟨true, rfl, rfl, e2.trans (by rw [h1.2]; rfl)⟩
      | F => exact absurd rfl hb
      | S => exact absurd rfl hb
      | G => exact absurd rfl hb
      | bad => exact absurd rfl hb
    | line i =>
      simp only [runOps_cons, runOps_nil, Op.run, marks]
      refine ih (a := sp a) ?_ h2 h3
      cases a with
      | I => exact ⟨false, rfl, rfl, h1.2.1⟩
      | P => exact ⟨false, rfl, rfl, h1.2⟩
      | F => exact absurd rfl hb
      | S => exact absurd rfl hb
      | G => exact absurd rfl hb
      | bad => exact absurd rfl hb
    | eol s n n' =>
      simp only [step] at h3 hb
      split at h3
      · rename_i hx
        obtain ⟨rfl, hc, hi, hnl⟩ := hx
        simp only [clean, Bool.and_eq_true] at hc
        obtain ⟨r1, r2, r3⟩ := h1
        simp only [runOps_cons, runOps_nil, Op.run, marks]
        have q1 : (st.flush.putText [' '] n).flush = st.flush.putText [' '] n :=
          flush_none (by rw [putText_pend, flush_pend])
        rw [q1, flush_none r3]
        have q2 : gaps 0 (st.putText [' '] n).out = gaps 0 st.out := by
          unfold PSt.putText
          split
          · rfl
          · dsimp only; rw [gaps_append]; simp [gaps]
        have q3 : tail 0 (st.putText [' '] n).out = 0 := by
          unfold PSt.putText
          split
          · exact r2
          · dsimp only; rw [tail_append, r2]; rfl
        have q4 : gaps 0 s = List.replicate (ink s).length 0 := gaps_row hnl
        have e1 : gaps 0 ((st.putText [' '] n).putText s n').out = gaps 0 st.out ++ List.replicate (ink s).length 0 := by
          rw [putText_out _ _ _ hi, gaps_append, q2, q3, q4]
        have e2 : tail 0 ((st.putText [' '] n).putText s n').out = 0 := by
          rw [putText_out _ _ _ hi, tail_append]; exact tail_cleanR hc.2 hi _
        have := ih (a := .I) (m := none) (st := (st.putText [' '] n).putText s n')
          (ms := ms ++ List.replicate (ink s).length (some 0))
          ⟨rfl, e2, by rw [putText_pend, putText_pend]; exact r3⟩
          (by rw [e1]; exact All2.append h2 (zeros _)) h3
        simpa using this
      · exact absurd (run_bad xs) h3

/-- The machine accepts no comments of punctuation. -/
theorem run_clean {xs : List Sym} {a : St} (h : run a xs ≠ .bad) : Sym.txt ['\n'] ∉ xs := by
  induction xs generalizing a with
  | nil => simp
  | cons x xs ih =>
    rw [run] at h
    rw [List.mem_cons]
    rintro (rfl | hx)
    · rw [show step a (.txt ['\n']) = .bad from rfl, run_bad] at h; exact h rfl
    · exact ih h hx

/-- The layout of a program agrees with the marks of its symbols. -/
theorem layout_fits {ro : Comment → Role} {cm : CMap} (hs : Roles ro cm) {k : Nat} {p : Prog} {d : Doc} {l : List Comment}
    (h : p.build k cm = .ok (d, l)) (w : Nat) (hr : run .I (syms ro cm p) ≠ .bad) :
    All2 Fits (gaps 0 (layout w d)) (marks none (syms ro cm p)) := by
  obtain ⟨ops, h1, h2⟩ := pr_ress hs k w p d l h (run_clean hr) 0 false [] PSt.init
  unfold layout
  rw [gaps_flush, h1]
  have := run_fits h2 (a := .I) (m := none) (st := PSt.init) (ms := []) ⟨rfl, rfl, rfl⟩ .nil hr
  simpa using this

end Afmt.Notes
