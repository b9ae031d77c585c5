import Verif.Ends.Mach
import Verif.Notes.Tac
import Verif.Trail.Tac

/-!
# White space at the ends of lines, with comments between members: rules for the abstract machine
-/

namespace Afmt.Ends
open Afmt.Prog (Ins)
open Afmt.Notes (Role Src comSyms textSyms lineSyms linesOf bucketOf PreRoles PostRoles syms symss symss_append Quiet QuietO quietO_none
  bare bares bares_syms ro0 hush memberKinds InL_of InL_mem InO_mem)
open Afmt.Lines (P P_bind P_ok P_pure P_err P_any P_mono P_get P_of P_guard InL InO InL_vec InL_named InL_try InL_filter
  InL_drop InL_tail InL_head InL_last InO_K InO_N InO_first mapR_ne fullKinds callable)
open Afmt.Trail (inner ends front lead pair Gate inner_append ends_append tidyEnds_eq Tight plainly ledCls front_append lead_append
  Tight_lower Tight_upper Tight_quote Tight_colon)

/-- A comment whose printed lines are not empty, have no white space at their ends and are admitted by the gate. -/
structure Fine [Gate] (c : Comment) : Prop where
  some : linesOf c ≠ []
  lines : ∀ l ∈ linesOf c, l ≠ [] ∧ '\n' ∉ l ∧ ends l = false ∧ Gate.ok l = true
  first : ∀ l ls, linesOf c = l :: ls → Gate.on = true → lead l = false

/-- The comments of the tree with their roles. -/
class Fair [Gate] extends Src where
  fine : ∀ i, ∀ c ∈ (bucketOf cm i).pre ++ (bucketOf cm i).post, Fine c

variable [Gate] [K : Fair]

/-- The state after the comments behind a node. -/
def pst (i : Nat) : St := if (bucketOf K.cm i).post = [] then .N else .Q

/-- Running the machine over the programs from `a` ends at most in `e`. -/
def T (a : St) (ps : List Prog) (e : St) : Prop := run a (symss K.ro K.cm ps) ≤ e

/-- The same for the strictest machine and programs without comments. -/
def T0 (a : St) (ps : List Prog) (e : St) : Prop := bares ps = true ∧ @run Gate.sharp a (symss ro0 [] ps) ≤ e
/-- A text for the strictest machine. -/
def tx0 (a : St) (s : Str) : St := @tx Gate.sharp a s

instance (a : St) (ps : List Prog) (e : St) : Decidable (T0 a ps e) :=
  inferInstanceAs (Decidable (bares ps = true ∧ @run Gate.sharp a (symss ro0 [] ps) ≤ e))

theorem T_of0 {a e : St} {ps : List Prog} (h : T0 a ps e) : T a ps e := by
  unfold T; rw [bares_syms h.1]; exact St.le_trans (run_le a _) h.2
omit K in
theorem tx_of0 {a e : St} {s : Str} (h : tx0 a s ≤ e) : tx a s ≤ e := St.le_trans (tx_le a s) h

theorem pst_ne {i : Nat} : pst i ≠ .bad := by unfold pst; split <;> decide
theorem pst_le {i : Nat} : pst i ≤ .Q := by unfold pst; split <;> decide
theorem pst_quiet {i : Nat} (h : Quiet i) : pst i = .N := by unfold pst; rw [h]; rfl

/-- The larger state. -/
def up (a b : St) : St := if a ≤ b then b else a
omit [Gate] K in
theorem up_left (a b : St) : a ≤ up a b := by unfold up; split <;> first | assumption | exact St.le_refl _
omit [Gate] K in
theorem up_right (a b : St) : b ≤ up a b := by cases a <;> cases b <;> decide
omit [Gate] K in
theorem up_N (a : St) : up .N a = a := by cases a <;> rfl

/-- From every state the program ends at most in `e`. -/
def Kid (e : St) (p : Prog) : Prop := T .L [p] e
/-- `Kid` for all programs. -/
def Kids (e : St) (ps : List Prog) : Prop := ∀ p ∈ ps, Kid e p
/-- `Kid` for the program, if any. -/
def OptK (e : St) (o : Option Prog) : Prop := ∀ p, o = some p → Kid e p
/-- `Kid` for all members. -/
def Mems (e : St) (ms : List (Bool × Prog)) : Prop := ∀ m ∈ ms, Kid e m.2
/-- A list of programs that may follow a visible character. -/
def Seg (ps : List Prog) : Prop := T .N ps .N
/-- A program that may follow a visible character. -/
def Led (p : Prog) : Prop := T .N [p] .N
/-- `Led` for all programs. -/
def Leds (ps : List Prog) : Prop := ∀ p ∈ ps, Led p
/-- `Led` for the program, if any. -/
def OptLed (o : Option Prog) : Prop := ∀ p, o = some p → Led p

/-! ### Comments -/

omit [Gate] K in
theorem inner_flat : ∀ {s : Str}, '\n' ∉ s → inner s = true
  | [], _ => rfl
  | [_], _ => rfl
  | c :: d :: s, h => by
    rw [inner, inner_flat (s := d :: s) (fun hm => h (List.mem_cons_of_mem _ hm)), Bool.and_true]
    have : (d == '\n') = false := by
      rw [beq_eq_false_iff_ne]; rintro rfl; exact h (by simp)
    rw [this, Bool.and_false]; rfl
omit [Gate] K in
theorem front_flat {s : Str} (h : '\n' ∉ s) : front s = true := by
  cases s with
  | nil => rfl
  | cons c s =>
    have : c ≠ '\n' := by rintro rfl; exact h (by simp)
    simp [front, this]

omit K in
/-- A line of a comment. -/
theorem tx_line {a : St} {l : Str} (ha : a ≠ .bad) (h : l ≠ [] ∧ '\n' ∉ l ∧ ends l = false ∧ Gate.ok l = true)
    (hf : (!Gate.on || fine a l) = true) : tx a l = .N := by
  obtain ⟨h1, h2, h3, h4⟩ := h
  have hs : l.isEmpty = false := by cases l with | nil => exact absurd rfl h1 | cons => rfl
  rw [tx_of ha, inner_flat h2, front_flat h2, h3, h4, hf, hs]
  rfl

omit K in
/-- Lines after the first one. -/
theorem run_lineSyms : ∀ {ls : List Str}, (∀ l ∈ ls, l ≠ [] ∧ '\n' ∉ l ∧ ends l = false ∧ Gate.ok l = true) → ls ≠ [] →
    run .Q (lineSyms ls) = .N
  | [], _, h => absurd rfl h
  | [l], hl, _ => by
    rw [lineSyms, run, run, step]
    exact tx_line (by decide) (hl l (by simp)) (by rw [show fine .Q l = true from rfl, Bool.or_true])
  | l :: l' :: ls, hl, _ => by
    rw [lineSyms, run, run]
    · rw [step, tx_line (by decide) (hl l (by simp)) (by rw [show fine .Q l = true from rfl, Bool.or_true])]
      exact run_lineSyms (fun x hx => hl x (by simp [List.mem_cons.1 hx])) (by simp)
    · simp

omit K in
theorem fine_first {a : St} {l : Str} (h : Gate.on = true → lead l = false) : (!Gate.on || fine a l) = true := by
  cases ho : (Gate.on : Bool) with
  | false => rfl
  | true =>
    have := h ho
    cases a <;> simp [fine, this]

omit K in
/-- The text of a comment. -/
theorem run_text {c : Comment} (h : Fine c) {a : St} (ha : a ≠ .bad) : run a (textSyms c) ≤ .Q := by
  obtain ⟨hs, hl, hf⟩ := h
  unfold textSyms
  unfold linesOf at hs hl hf
  cases ht : c.type with
  | line =>
    rw [ht] at hl hf
    dsimp only at hl hf ⊢
    rw [run, run, run, step, tx_line ha (hl _ (by simp)) (fine_first (hf _ _ rfl))]
    exact St.le_refl _
  | block =>
    rw [ht] at hs hl hf
    dsimp only at hs hl hf ⊢
    cases e : blockLines c.value with
    | nil => exact absurd e hs
    | cons l ls =>
      rw [e] at hl
      cases ls with
      | nil =>
        rw [lineSyms, run, run, step, tx_line ha (hl l (by simp)) (fine_first (hf _ _ e))]
        decide
      | cons l' ls =>
        rw [lineSyms, run, run, step, tx_line ha (hl l (by simp)) (fine_first (hf _ _ e))]
        · show run .Q (lineSyms (l' :: ls)) ≤ .Q
          rw [run_lineSyms (fun x hx => hl x (by simp [List.mem_cons.1 hx])) (by simp)]
          decide
        · simp

omit [Gate] K in
theorem brl_Q {a : St} (h : a ≤ .Q) : brl a = .L := by revert h; cases a <;> decide

omit [Gate] K in
theorem le_L' {a : St} (h : a ≠ .bad) : a ≤ .L := by cases a <;> first | decide | exact absurd rfl h

omit K in
/-- The comments before a node. -/
theorem run_pre {ro : Comment → Role} : ∀ {cs : List Comment} {a : St} {first : Bool}, PreRoles ro first cs → (∀ c ∈ cs, Fine c) →
    a ≠ .bad → (first = false → a ≤ .Q) → run a (cs.flatMap (fun c => comSyms (ro c) c)) ≤ .L
  | [], _, _, _, _, ha, _ => le_L' ha
  | c :: cs, a, first, ⟨_, _, h1, h2, h3⟩, hs, ha, hf => by
    rw [List.flatMap_cons, run_append]
    unfold comSyms
    rw [run_append, h1, h2]
    have ht : run a (match (if first then Notes.Lead.none else Notes.Lead.sep c.meta'.hasEmptyLineAbove) with
        | .none => textSyms c | .sep b => .sep b :: textSyms c | .eol => [.eol c.value, .br .cut]) ≤ .Q := by
      cases first with
      | true => exact run_text (hs c (by simp)) ha
      | false =>
        have : brl a = .L := brl_Q (hf rfl)
        show run (brl a) (textSyms c) ≤ .Q
        rw [this]
        exact run_text (hs c (by simp)) (by decide)
    generalize run a _ = b at ht
    cases cs with
    | nil =>
      simp only [if_true, List.flatMap_nil, run]
      show brl b ≤ .L
      rw [brl_Q ht]; decide
    | cons c' cs =>
      simp only [if_neg (List.cons_ne_nil c' cs), run]
      exact run_pre h3 (fun x hx => hs x (by simp [List.mem_cons.1 hx])) (by rintro rfl; exact absurd ht (by decide)) (fun _ => ht)

omit K in
/-- The comments after a node. -/
theorem run_post {ro : Comment → Role} : ∀ {cs : List Comment} {a : St}, PostRoles ro cs → (∀ c ∈ cs, Fine c) →
    a ≤ .Q → (∀ c ∈ cs, (ro c).lead = .eol → a = .N) → (∀ c ∈ cs.tail, (ro c).lead ≠ .eol) →
    run a (cs.flatMap (fun c => comSyms (ro c) c)) ≤ .Q
  | [], _, _, _, ha, _, _ => ha
  | c :: cs, a, ⟨_, h1, h2, hl, h3⟩, hs, ha, hf, ho => by
    rw [List.flatMap_cons, run_append]
    unfold comSyms
    rw [run_append, h1, h2]
    have ht : run a (match (if c.meta'.hasLeadingContent then Notes.Lead.eol else Notes.Lead.sep c.meta'.hasEmptyLineAbove) with
        | .none => textSyms c | .sep b => .sep b :: textSyms c | .eol => [.eol c.value, .br .cut]) ≤ .Q := by
      cases hh : c.meta'.hasLeadingContent with
      | true =>
        rw [hh] at h2
        have := hf c (by simp) (by rw [h2]; rfl)
        subst this
        have hc := hl hh
        obtain ⟨-, hn, hfi⟩ := hs c (by simp)
        unfold linesOf at hn hfi
        rw [hc] at hn hfi
        dsimp only at hn hfi
        show run (tx .B c.value) [.br .cut] ≤ .Q
        rw [tx_line (by decide) (hn _ (by simp)) (fine_first (hfi _ _ rfl))]
        exact St.le_refl _
      | false =>
        have : brl a = .L := brl_Q ha
        show run (brl a) (textSyms c) ≤ .Q
        rw [this]
        exact run_text (hs c (by simp)) (by decide)
    generalize run a _ = b at ht
    refine run_post (a := b) h3 (fun x hx => hs x (by simp [hx])) ht (fun x hx e => absurd e (ho x hx)) ?_
    intro x hx
    exact ho x (List.mem_of_mem_tail hx)

omit [Gate] K in
theorem le_L {a : St} (h : a ≠ .bad) : a ≤ .L := by cases a <;> first | decide | exact absurd rfl h

theorem T_nil {a e : St} (h : a ≤ e) : T a [] e := h
theorem T_app {a b e : St} {ps qs : List Prog} (h : T a ps b) (h' : T b qs e) : T a (ps ++ qs) e := by
  unfold T at *
  rw [symss_append, run_append]
  exact St.le_trans (run_mono h _) h'
theorem T_cons {a b e : St} {p : Prog} {qs : List Prog} (h : T a [p] b) (h' : T b qs e) : T a (p :: qs) e :=
  T_app (ps := [p]) h h'
theorem T_start {a a' e : St} {ps : List Prog} (h : a ≤ a') (h' : T a' ps e) : T a ps e := St.le_trans (run_mono h _) h'
theorem T_end {a e e' : St} {ps : List Prog} (h : T a ps e) (h' : e ≤ e') : T a ps e' := St.le_trans h h'

theorem T_pre {a e : St} {i : Nat} {qs : List Prog} (ha : a ≠ .bad) (h : T .L qs e) : T a (.pre i :: qs) e := by
  unfold T at *
  rw [symss, syms, run_append]
  refine St.le_trans (run_mono ?_ _) h
  exact run_pre (K.roles.pre i) (fun c hc => K.fine i c (by simp [hc])) ha nofun

theorem T_pre' {a e : St} {i : Nat} {qs : List Prog} (hi : Quiet i) (h : T a qs e) : T a (.pre i :: qs) e := by
  unfold T at *
  rw [symss, syms, hi]
  exact h

theorem T_post {a e : St} {i : Nat} {qs : List Prog} (ha : a = .N) (h : T (pst i) qs e) : T a (.post i :: qs) e := by
  subst ha
  unfold T at *
  rw [symss, syms, run_append]
  refine St.le_trans (run_mono ?_ _) h
  unfold pst
  split
  · rename_i h; rw [h]; exact St.le_refl _
  · exact run_post (K.roles.post i) (fun c hc => K.fine i c (by simp [hc])) (by decide) (fun _ _ _ => rfl) (K.once i)

theorem T_post' {a e : St} {i : Nat} {qs : List Prog} (hi : Quiet i) (h : T a qs e) : T a (.post i :: qs) e := by
  unfold T at *
  rw [symss, syms, hi]
  exact h

theorem T_concat {a e : St} {ps qs : List Prog} (h : T a (ps ++ qs) e) : T a (.concat ps :: qs) e := by
  unfold T at *; rw [symss_append] at h; rw [symss, syms]; exact h
theorem T_concat_last {a e : St} {ps : List Prog} (h : T a ps e) : T a [.concat ps] e := T_concat (by rwa [List.append_nil])
theorem T_group {a e : St} {p : Prog} {qs : List Prog} (ha : fl a = a) (h : T a (p :: qs) e) : T a (.group p :: qs) e := by
  unfold T at *; rw [symss] at h; rw [symss, syms, List.cons_append, run, step, ha]; exact h
theorem T_indent {a e : St} {p : Prog} {qs : List Prog} (h : T a (p :: qs) e) : T a (.indent p :: qs) e := by
  unfold T at *; rw [symss] at h; rw [symss, syms]; exact h
theorem T_dedent {a e : St} {p : Prog} {qs : List Prog} (h : T a (p :: qs) e) : T a (.dedent p :: qs) e := by
  unfold T at *; rw [symss] at h; rw [symss, syms]; exact h
theorem T_ifDangling {a e : St} {i : Nat} {p q : Prog} {qs : List Prog} (h : T a (q :: qs) e) :
    T a (.ifDangling i p q :: qs) e := by
  unfold T at *; rw [symss] at h; rw [symss, syms]; exact h
theorem T_rootDangling {a e : St} {i : Nat} {qs : List Prog} (h : T a qs e) : T a (.rootDangling i :: qs) e := by
  unfold T at *; rw [symss, syms]; exact h
theorem T_dangling {a e : St} {i : Nat} {qs : List Prog} (h : T a qs e) : T a (.dangling i :: qs) e := by
  unfold T at *; rw [symss, syms]; exact h
theorem T_force {a e : St} {qs : List Prog} (h : T a qs e) : T a (.forceBreak :: qs) e := by
  unfold T at *; rw [symss, syms]; exact h
theorem T_fail {a e : St} {x : Panic} {qs : List Prog} (h : T a qs e) : T a (.fail x :: qs) e := by
  unfold T at *; rw [symss, syms]; exact h
omit [Gate] K in
theorem hard_Q {a : St} (h : a ≤ .Q) : brk .hard a = .M := by revert h; cases a <;> decide
omit [Gate] K in
theorem soft_N {a : St} (h : a ≤ .N) : brk .soft a = .B := by revert h; cases a <;> decide
theorem T_nlM {a e : St} {qs : List Prog} (ha : a ≤ .Q) (h : T .M qs e) : T a (.nl :: qs) e := by
  unfold T at *; rw [symss, syms, List.singleton_append, run, step, hard_Q ha]; exact h
theorem T_nl {a e : St} {qs : List Prog} (ha : a ≤ .Q) (h : T .B qs e) : T a (.nl :: qs) e := T_nlM ha (T_start (by decide) h)
theorem T_nlLast {a e : St} (ha : a ≤ .Q) (h : St.M ≤ e) : T a [.nl] e := T_nlM ha h
theorem T_soft {a e : St} {qs : List Prog} (ha : a ≤ .N) (h : T .B qs e) : T a (.softline :: qs) e := by
  unfold T at *; rw [symss, syms, List.singleton_append, run, step, soft_N ha]; exact h
omit [Gate] K in
theorem may_N {a : St} (h : a ≤ .N) : brk .may a = .M := by revert h; cases a <;> decide
theorem T_mayM {a e : St} {qs : List Prog} (ha : a ≤ .N) (h : T .M qs e) : T a (.maybeline :: qs) e := by
  unfold T at *; rw [symss, syms, List.singleton_append, run, step, may_N ha]; exact h
theorem T_maybe {a e : St} {qs : List Prog} (ha : a ≤ .N) (h : T .B qs e) : T a (.maybeline :: qs) e := T_mayM ha (T_start (by decide) h)
theorem T_sep {a e : St} {b : Bool} {qs : List Prog} (ha : a ≤ .Q) (h : T .L qs e) : T a (.sep b :: qs) e := by
  unfold T at *; rw [symss, syms, List.singleton_append, run, step, brl_Q ha]; exact h

/-- A text. -/
theorem T_txt {a b e : St} {s : Str} {qs : List Prog} (h : tx a s ≤ b) (h' : T b qs e) : T a (.txt s :: qs) e := by
  unfold T at *
  rw [symss, syms, List.singleton_append, run, step]
  exact St.le_trans (run_mono h _) h'

theorem T_punct {a e : St} {p : Punc} {qs : List Prog} (hp : Quiet p.id) (ha : a ≠ .bad) (h : T .N qs e) : T a (.punct p :: qs) e := by
  unfold T at *
  rw [symss, syms, if_pos (show bucketOf K.cm p.id = Bucket.empty from hp), List.singleton_append, run, step]
  have h1 : tx a p.text ≤ .N := tx_of0 (by unfold Punc.text; split <;> (revert ha; cases a <;> decide))
  exact St.le_trans (run_mono h1 _) h

theorem T_punctOpt {a e : St} {o : Option Punc} {qs : List Prog} (hp : QuietO o) (ha : a ≠ .bad) (h : T a qs e) :
    T a (Prog.punctOpt o ++ qs) e := by
  cases o with
  | none => exact h
  | some p => exact T_punct (hp p rfl) ha (T_start (St.N_le a) h)

theorem T_kid {a b e : St} {p : Prog} {qs : List Prog} (hk : Kid b p) (ha : a ≠ .bad) (h : T b qs e) : T a (p :: qs) e :=
  T_cons (T_start (le_L ha) hk) h

theorem T_optN {a e : St} {o : Option Prog} {qs : List Prog} (hk : OptK .N o) (ha : a ≠ .bad) (h : T a qs e) :
    T a (Prog.opt o ++ qs) e := by
  cases o with
  | none => exact h
  | some p => exact T_kid (hk p rfl) ha (T_start (St.N_le a) h)
theorem T_optB {a e : St} {o : Option Prog} {qs : List Prog} (hk : OptK .L o) (ha : a ≠ .bad) (h : T .L qs e) :
    T a (Prog.opt o ++ qs) e := by
  cases o with
  | none => exact T_start (le_L ha) h
  | some p => exact T_kid (hk p rfl) ha h
theorem T_optL {a e : St} {o : Option Prog} (h : T a (Prog.opt o ++ []) e) : T a (Prog.opt o) e := by
  rwa [List.append_nil] at h

/-- Kids one after the other. -/
theorem T_kidsN {a e : St} {ps qs : List Prog} (hk : Kids .N ps) (ha : a ≠ .bad) (h : T a qs e) : T a (ps ++ qs) e := by
  induction ps generalizing a with
  | nil => exact h
  | cons p ps ih =>
    exact T_kid (hk p (by simp)) ha (ih (fun q hq => hk q (by simp [hq])) (by decide) (T_start (St.N_le a) h))
theorem T_kidsB {a e : St} {ps qs : List Prog} (hk : Kids .B ps) (ha : a ≠ .bad) (h : T .L qs e) : T a (ps ++ qs) e := by
  induction ps generalizing a with
  | nil => exact T_start (le_L ha) h
  | cons p ps ih => exact T_kid (hk p (by simp)) ha (ih (fun q hq => hk q (by simp [hq])) (by decide))

theorem T_ite {a e : St} {c : Prop} [Decidable c] {ps ps' qs : List Prog} (h : T a (ps ++ qs) e) (h' : T a (ps' ++ qs) e) :
    T a ((if c then ps else ps') ++ qs) e := by split <;> assumption
theorem T_ite1 {a e : St} {c : Prop} [Decidable c] {p p' : Prog} {qs : List Prog} (h : T a (p :: qs) e) (h' : T a (p' :: qs) e) :
    T a ((if c then p else p') :: qs) e := by split <;> assumption
theorem T_iteL {a e : St} {c : Prop} [Decidable c] {ps ps' : List Prog} (h : T a ps e) (h' : T a ps' e) :
    T a (if c then ps else ps') e := by split <;> assumption

/-! ### Lists -/

/-- The separator may stand between programs that end in `b`. -/
def SepOk (b : St) (x : Ins) : Prop := T0 b x.progs .B
instance (b : St) (x : Ins) : Decidable (SepOk b x) := inferInstanceAs (Decidable (T0 b x.progs .B))

omit K in
theorem tx_nil {a : St} (h : fl a = a) : tx a [] ≤ a := by cases a <;> first | exact St.le_refl _ | cases h

theorem T_interParts {b : St} {x : Ins} (hx : SepOk b x) : ∀ {ps : List Prog} {a : St}, a ≠ .bad → Kids b ps → ps ≠ [] →
    T a (Prog.intersperseParts x ps) b
  | [], a, _, _, h => absurd rfl h
  | [p], a, ha, hk, _ => by
    rw [Prog.intersperseParts]
    exact T_kid (hk p (by simp)) ha (St.le_refl _)
  | p :: q :: ps, a, ha, hk, _ => by
    rw [Prog.intersperseParts]
    · refine T_kid (hk p (by simp)) ha (T_app (T_of0 hx) ?_)
      exact T_interParts hx (by decide) (fun r hr => hk r (by simp [List.mem_cons.1 hr])) (by simp)
    · simp

theorem T_inter {a e : St} {x : Ins} {ps qs : List Prog} (hk : Kids .N ps) (ha : a ≠ .bad ∧ fl a = a) (hx : SepOk .N x)
    (h : T a qs e) : T a (Prog.intersperse ps x :: qs) e := by
  cases ps with
  | nil => exact T_txt (tx_nil ha.2) h
  | cons p ps => exact T_concat (T_app (T_interParts hx ha.1 hk (by simp)) (T_start (St.N_le a) h))
theorem T_inter1 {a b e : St} {x : Ins} {p : Prog} {ps qs : List Prog} (hk : Kids b (p :: ps)) (ha : a ≠ .bad) (hx : SepOk b x)
    (h : T b qs e) : T a (Prog.intersperse (p :: ps) x :: qs) e :=
  T_concat (T_app (T_interParts hx ha hk (by simp)) h)
theorem T_interNe {a b e : St} {x : Ins} {ps qs : List Prog} (hk : Kids b ps) (hne : ps ≠ []) (ha : a ≠ .bad) (hx : SepOk b x)
    (h : T b qs e) : T a (Prog.intersperse ps x :: qs) e := by
  cases ps with
  | nil => exact absurd rfl hne
  | cons p ps => exact T_inter1 hk ha hx h

/-- `surround` with opening and closing texts. -/
theorem T_surround {a e : St} {x : Ins} {o c : Str} {so pc : Option Prog} {ps qs : List Prog} (hk : Kids .N ps)
    (hx : SepOk .N x) (h1 : T0 a (.txt o :: (Prog.opt so).map .indent) .B) (h2 : T0 .N (Prog.opt pc ++ [.txt c]) .N)
    (h0 : T0 a [.txt o, .txt c] .N) (h : T .N qs e) :
    T a (Prog.surround ps x ⟨none, some o, so⟩ ⟨pc, some c, none⟩ :: qs) e := by
  cases ps with
  | nil =>
    rw [Prog.surround]
    exact T_concat (T_app (T_of0 h0) h)
  | cons p ps =>
    rw [Prog.surround]
    · refine T_concat ?_
      simp only [Prog.opt, Prog.optT, List.nil_append, List.append_nil, List.append_assoc]
      rw [← List.append_assoc]
      refine T_app (T_of0 h1) (T_indent (T_inter1 hk (by decide) hx ?_))
      have := T_app (T_of0 h2) h
      rwa [List.append_assoc] at this
    · simp

/-! ### Bodies -/

theorem T_bodyParts : ∀ {ms : List (Bool × Prog)} {a : St}, a ≠ .bad → Mems .Q ms → ms ≠ [] → T a (Prog.bodyParts ms) .Q
  | [], a, _, _, h => absurd rfl h
  | [(t, p)], a, ha, hk, _ => by
    rw [Prog.bodyParts]
    exact T_kid (hk (t, p) (by simp)) ha (St.le_refl _)
  | (tr, p) :: q :: ms, a, ha, hk, _ => by
    rw [Prog.bodyParts]
    · refine T_kid (hk (tr, p) (by simp)) ha (T_sep (St.le_refl _) ?_)
      exact T_bodyParts (by decide) (fun r hr => hk r (by simp [List.mem_cons.1 hr])) (by simp)
    · simp

theorem T_interBody {a e : St} {ms : List (Bool × Prog)} {qs : List Prog} (hk : Mems .Q ms) (ha : a ≠ .bad ∧ fl a = a)
    (h : T (up a .Q) qs e) : T a (Prog.intersperseBody ms :: qs) e := by
  cases ms with
  | nil => exact T_txt (St.le_trans (tx_nil ha.2) (up_left _ _)) h
  | cons m ms => exact T_concat (T_app (T_bodyParts ha.1 hk (by simp)) (T_start (up_right _ _) h))
theorem T_interBodyNe {a e : St} {ms : List (Bool × Prog)} {qs : List Prog} (hk : Mems .Q ms) (hne : ms ≠ []) (ha : a ≠ .bad)
    (h : T .Q qs e) : T a (Prog.intersperseBody ms :: qs) e := by
  cases ms with
  | nil => exact absurd rfl hne
  | cons m ms => exact T_concat (T_app (T_bodyParts ha hk (by simp)) h)

theorem T_surroundBody {a e : St} {ms : List (Bool × Prog)} {qs : List Prog} (hk : Mems .Q ms) (ha : a ≠ .bad)
    (h : T .N qs e) : T a (Prog.surroundBody ms :: qs) e := by
  refine T_start (le_L ha) ?_
  cases ms with
  | nil =>
    exact T_concat (T_txt (b := .N) (tx_of0 (by decide)) (T_nl (by decide) (T_txt (b := .N) (tx_of0 (by decide)) h)))
  | cons m ms =>
    rw [Prog.surroundBody]
    · refine T_concat (T_txt (b := .N) (tx_of0 (by decide)) (T_indent (T_nl (by decide) (T_indent (T_interBodyNe hk (by simp) (by decide) ?_)))))
      exact T_nl (by decide) (T_txt (b := .N) (tx_of0 (by decide)) h)
    · simp

theorem T_bracketBody {a e : St} {n : Loc} {ms : List (Bool × Prog)} {qs : List Prog} (hk : Mems .Q ms) (ha : a ≠ .bad)
    (h : T (pst n.id) qs e) : T a (Prog.New.bracketBody n ms :: qs) e :=
  T_concat (T_pre ha (T_ifDangling (T_concat (T_surroundBody hk (by decide) (T_post rfl h)))))

/-! ### Texts -/

omit K in
theorem tx_tight {a : St} {s : Str} (h : Tight s) (ha : a ≠ .bad) : tx a s = .N := by
  unfold Tight at h
  obtain ⟨h1, h2, h3, h4, h5⟩ := h
  rw [tidyEnds_eq, Bool.and_eq_true, Bool.not_eq_true'] at h3
  have hs : s.isEmpty = false := by cases s with | nil => exact absurd rfl h1 | cons => rfl
  rw [tx_of ha, h3.1, h3.2, h2, h4, fine_first h5, hs]
  rfl
omit K in
theorem tx_blank {a : St} {s : Str} (h : Tight s) (ha : a ≠ .bad) : tx a (s ++ [' ']) = .B := by
  unfold Tight at h
  obtain ⟨h1, h2, h3, h4, h5⟩ := h
  rw [tidyEnds_eq, Bool.and_eq_true, Bool.not_eq_true'] at h3
  have hs : (s ++ [' ']).isEmpty = false := by simp
  have hi : inner (s ++ [' ']) = true := inner_append h3.1 rfl (fun _ => rfl)
  have he : ends (s ++ [' ']) = true := by rw [ends_append (by simp)]; rfl
  have hf : front (s ++ [' ']) = true := by rw [front_append h1]; exact h2
  have ho : Gate.ok (s ++ [' ']) = true := Gate.append _ _ h4 (Gate.base _ rfl rfl) h3.2
  rw [tx_of ha, hs, hi, hf, he, ho, fine_first (by rw [lead_append h1]; exact h5)]
  rfl
omit K in
theorem tx_blanks {a : St} {s : Str} (h : Tight s) (ha : a ≤ .Q) : tx a (' ' :: (s ++ [' '])) = .B := by
  unfold Tight at h
  obtain ⟨h1, h2, h3, h4, h5⟩ := h
  rw [tidyEnds_eq, Bool.and_eq_true, Bool.not_eq_true'] at h3
  have hi : inner (' ' :: (s ++ [' '])) = true :=
    inner_append (a := [' ']) rfl (inner_append h3.1 rfl (fun _ => rfl)) (fun _ => (front_append h1 (r := [' '])).trans h2)
  have he : ends (' ' :: (s ++ [' '])) = true := by
    rw [show ' ' :: (s ++ [' ']) = (' ' :: s) ++ [' '] from rfl, ends_append (by simp)]; rfl
  have hf : front (' ' :: (s ++ [' '])) = true := rfl
  have ho : Gate.ok (' ' :: (s ++ [' '])) = true :=
    Gate.cons _ (Gate.append _ _ h4 (Gate.base _ rfl rfl) h3.2) (fun h => by rw [lead_append h1]; exact h5 h)
  have hfi : fine a (' ' :: (s ++ [' '])) = true := by cases a <;> first | rfl | exact absurd ha (by decide)
  have hne : a ≠ .bad := by rintro rfl; exact absurd ha (by decide)
  rw [tx_of hne, hi, hf, he, ho, hfi, Bool.or_true]
  rfl

theorem T_val {a e : St} {s : Str} {qs : List Prog} (h : Tight s) (ha : a ≠ .bad) (hq : T .N qs e) : T a (.txt s :: qs) e :=
  T_txt (by rw [tx_tight h ha]; exact St.le_refl _) hq
theorem T_txtR {a e : St} {s : Str} {qs : List Prog} (h : Tight s) (ha : a ≠ .bad) (hq : T .B qs e) : T a (Prog.txtR s :: qs) e :=
  T_txt (by rw [tx_blank h ha]; exact St.le_refl _) hq
theorem T_txtLR {a e : St} {s : Str} {qs : List Prog} (h : Tight s) (ha : a ≤ .Q) (hq : T .B qs e) : T a (Prog.txtLR s :: qs) e :=
  T_txt (by rw [tx_blanks h ha]; exact St.le_refl _) hq
theorem T_kindt {a e : St} {k : String} {qs : List Prog} (h : Tight k.toList) (ha : a ≠ .bad) (hq : T .N qs e) :
    T a (Prog.t k :: qs) e := T_val h ha hq
theorem T_tN {a e : St} {s : String} {qs : List Prog} (h : tx0 a s.toList ≤ .N) (h' : T .N qs e) : T a (Prog.t s :: qs) e := T_txt (tx_of0 h) h'
theorem T_tB {a e : St} {s : String} {qs : List Prog} (h : tx0 a s.toList ≤ .B) (h' : T .B qs e) : T a (Prog.t s :: qs) e := T_txt (tx_of0 h) h'
theorem T_tL {a e : St} {s : String} {qs : List Prog} (h : tx0 a (' ' :: s.toList) ≤ .N) (h' : T .N qs e) : T a (Prog.tL s :: qs) e := T_txt (tx_of0 h) h'
theorem T_tR {a e : St} {s : String} {qs : List Prog} (h : tx0 a (s.toList ++ [' ']) ≤ .B) (h' : T .B qs e) : T a (Prog.tR s :: qs) e := T_txt (tx_of0 h) h'
theorem T_tLR {a e : St} {s : String} {qs : List Prog} (h : tx0 a (' ' :: (s.toList ++ [' '])) ≤ .B) (h' : T .B qs e) : T a (Prog.tLR s :: qs) e := T_txt (tx_of0 h) h'
theorem T_nilp {a e : St} {qs : List Prog} (ha : fl a = a) (h : T a qs e) : T a (Prog.nil :: qs) e := T_txt (tx_nil ha) h

/-! ### Wrappers -/

theorem T_wcp {a e : St} {i : Nat} {p : Option Punc} {ps qs : List Prog} (hp : QuietO p) (ha : a ≠ .bad) (h : T .L ps .N)
    (h' : T (pst i) qs e) : T a (Prog.withCommentsAndPunc i p ps :: qs) e := by
  refine T_concat ?_
  simp only [List.cons_append, List.nil_append, List.append_assoc]
  exact T_pre ha (T_ifDangling (T_concat (T_app h (T_ifDangling (T_post rfl (T_punctOpt hp pst_ne h'))))))
theorem T_wcpa {a e : St} {i : Nat} {p : Option Punc} {ps qs : List Prog} (hp : QuietO p) (ha : a ≠ .bad) (h : T .L ps .N)
    (h' : T (pst i) qs e) : T a (Prog.withCommentsAndPuncAttached i p ps :: qs) e := by
  refine T_concat ?_
  simp only [List.cons_append, List.nil_append, List.append_assoc]
  exact T_pre ha (T_ifDangling (T_concat (T_app h (T_punctOpt hp (by decide) (T_ifDangling (T_post rfl h'))))))
theorem T_bwcp {a e : St} {n : Loc} {ps qs : List Prog} (hp : QuietO (Punc.from n)) (ha : a ≠ .bad) (h : T .L ps .N)
    (h' : T (pst n.id) qs e) : T a (Prog.New.bwcp n ps :: qs) e := by
  refine T_concat ?_
  simp only [List.cons_append, List.nil_append, List.append_assoc]
  exact T_pre ha (T_ifDangling (T_concat (T_app h (T_ifDangling (T_post rfl (T_punctOpt hp pst_ne h'))))))
/-- A node without comments. -/
theorem T_bwcp' {a b e : St} {n : Loc} {ps qs : List Prog} (hq : Quiet n.id) (hp : QuietO (Punc.from n)) (hb : b ≠ .bad)
    (h : T a ps b) (h' : T b qs e) : T a (Prog.New.bwcp n ps :: qs) e := by
  refine T_concat ?_
  simp only [List.cons_append, List.nil_append, List.append_assoc]
  exact T_pre' hq (T_ifDangling (T_concat (T_app h (T_ifDangling (T_post' hq (T_punctOpt hp hb h'))))))
theorem T_bwc {a e : St} {n : Loc} {ps qs : List Prog} (ha : a ≠ .bad) (h : T .L ps .N) (h' : T (pst n.id) qs e) :
    T a (Prog.New.bwc n ps :: qs) e := by
  refine T_concat ?_
  simp only [List.cons_append, List.nil_append]
  refine T_pre ha (T_ifDangling (T_concat ?_))
  rw [List.append_assoc]
  exact T_app h (T_post rfl h')
/-- A node without comments. -/
theorem T_bwc' {a e : St} {n : Loc} {ps qs : List Prog} (hq : Quiet n.id) (h : T a (ps ++ qs) e) : T a (Prog.New.bwc n ps :: qs) e := by
  refine T_concat ?_
  simp only [List.cons_append, List.nil_append]
  refine T_pre' hq (T_ifDangling (T_concat ?_))
  rw [List.append_assoc]
  unfold T at *
  rw [symss_append] at h ⊢
  rw [List.cons_append, symss, syms, hq]
  exact h
theorem T_paren {a e : St} {ps qs : List Prog} (hk : Kids .N ps) (ha : a ≠ .bad) (h : T .N qs e) :
    T a (Prog.New.parenList ps :: qs) e :=
  T_start (le_L ha) (T_group rfl (T_surround hk (by decide) (by decide) (by decide) (by decide) h))
theorem T_declarators {a e : St} {ps qs : List Prog} (hk : Kids .N ps) (ha : a ≠ .bad ∧ fl a = a) (h : T a qs e) :
    T a (Prog.New.declaratorsDoc ps :: qs) e := by
  unfold Prog.New.declaratorsDoc
  split
  · exact T_kid (hk _ (by simp)) ha.1 (T_start (St.N_le a) h)
  · exact T_group ha.2 (T_indent (T_inter hk ha (by decide) h))
theorem T_chain {a e : St} {c : Option ChainingContext} {o : Prog} {link qs : List Prog} (ho : Kid .N o) (ha : a ≠ .bad)
    (hl : T .B link .N) (h : T .N qs e) : T a (Prog.New.chainDoc c o link :: qs) e := by
  have hl' : T .N link .N := T_start (by decide) hl
  have key : ∀ {b : Bool}, T .L (([o] ++ (if b then [Prog.maybeline] else []) ++ link) ++ qs) e := by
    intro b
    rw [List.append_assoc, List.append_assoc]
    refine T_kid ho (by decide) ?_
    cases b
    · simpa using T_app hl' h
    · simpa using T_maybe (by decide) (T_app hl h)
  refine T_start (le_L ha) ?_
  unfold Prog.New.chainDoc
  cases c with
  | none => exact T_concat (T_kid ho (by decide) (T_app hl' h))
  | some c =>
    dsimp only
    split
    · exact T_group rfl (T_indent (T_concat key))
    · exact T_concat key
theorem T_spaced {a e : St} {o : Option Prog} {qs : List Prog} (ho : OptK .N o) (ha : a ≤ .M) (h : T a qs e) :
    T a (Prog.New.spaced o ++ qs) e := by
  cases o with
  | none => exact h
  | some p =>
    refine T_start ha (T_tB (by decide) (T_kid (ho p rfl) (by decide) (T_start (St.N_le a) h)))
theorem T_spacedL {a e : St} {o : Option Prog} (ho : OptK .N o) (ha : a ≤ .M) (h : T a [] e) :
    T a (Prog.New.spaced o) e := by
  rw [← List.append_nil (Prog.New.spaced o)]; exact T_spaced ho ha h
theorem T_annotated {a e : St} {ps : List Prog} {s : Str} (hk : Kids .M ps) (hs : Tight s) (ha : a ≠ .bad) (h : St.N ≤ e) :
    T a (Prog.New.annotatedName ps s) e := by
  unfold Prog.New.annotatedName
  split
  · exact T_val hs ha h
  · rename_i hne
    exact T_interNe hk (by rintro rfl; exact hne rfl) ha (by decide) (T_tB (by decide) (T_val hs (by decide) h))

/-! ### Lists of kids -/

theorem Kids_end {e e' : St} {ps : List Prog} (h : Kids e ps) (h' : e ≤ e') : Kids e' ps := fun p hp => T_end (h p hp) h'
theorem Kids_nil {e : St} : Kids e [] := fun _ h => absurd h (by simp)
theorem Kids_cons {e : St} {p : Prog} {ps : List Prog} (h : Kid e p) (h' : Kids e ps) : Kids e (p :: ps) := by
  intro q hq
  rcases List.mem_cons.1 hq with rfl | hq
  · exact h
  · exact h' q hq
theorem Kids_append {e : St} {ps qs : List Prog} (h : Kids e ps) (h' : Kids e qs) : Kids e (ps ++ qs) := by
  intro q hq
  rcases List.mem_append.1 hq with hq | hq
  · exact h q hq
  · exact h' q hq
theorem Kids_opt {e : St} {o : Option Prog} (h : OptK e o) : Kids e (Prog.opt o) := by
  cases o with
  | none => exact Kids_nil
  | some p => exact Kids_cons (h p rfl) Kids_nil
theorem Kids_ite {e : St} {c : Prop} [Decidable c] {ps qs : List Prog} (h : Kids e ps) (h' : Kids e qs) :
    Kids e (if c then ps else qs) := by split <;> assumption
theorem Kid_le {e e' : St} {p : Prog} (h : Kid e p) (h' : e ≤ e') : Kid e' p := T_end h h'
theorem Kid_of {e : St} {p : Prog} (h : T .L [p] e) : Kid e p := h
theorem Seg_of {ps : List Prog} (h : T .N ps .N) : Seg ps := h
theorem OptK_get {e : St} {p : Prog} (h : OptK e (some p)) : Kid e p := h p rfl
theorem Kid_last {e : St} {ps : List Prog} {p : Prog} (h : Kids e ps) (hp : ps.getLast? = some p) : Kid e p :=
  h p (List.mem_of_getLast? hp)
theorem Kids_head {e : St} {p : Prog} {ps : List Prog} (h : Kids e (p :: ps)) : Kid e p := h p (.head _)
theorem Kids_tail {e : St} {p : Prog} {ps : List Prog} (h : Kids e (p :: ps)) : Kids e ps := fun q hq => h q (.tail _ hq)
theorem Mems_nil {e : St} : Mems e [] := fun _ h => absurd h (by simp)

/-! ### Results -/

theorem P_opt {α : Type} {e : St} {o : Option α} {f : α → R Prog} (h : ∀ x, o = some x → P (f x) (Kid e)) :
    P (optR o f) (OptK e) := by
  refine P_of fun r hr p hp => ?_
  subst hp
  cases o with
  | none => cases hr
  | some x =>
    simp only [optR] at hr
    split at hr
    · rename_i b hb
      cases hr
      exact P_get (h x rfl) hb
    · cases hr

theorem P_optLed {α : Type} {o : Option α} {f : α → R Prog} (h : ∀ x, o = some x → P (f x) Led) : P (optR o f) OptLed := by
  refine P_of fun r hr p hp => ?_
  subst hp
  cases o with
  | none => cases hr
  | some x =>
    simp only [optR] at hr
    split at hr
    · rename_i b hb
      cases hr
      exact P_get (h x rfl) hb
    · cases hr

theorem P_mapLed {α : Type} {f : α → R Prog} : ∀ {xs : List α}, (∀ x ∈ xs, P (f x) Led) → P (mapR f xs) Leds
  | [], _ => by refine P_of fun r hr => ?_; cases hr; intro p hp; cases hp
  | x :: xs, h => by
    refine P_of fun r hr => ?_
    rw [mapR] at hr
    split at hr
    · cases hr
    · rename_i b hb
      split at hr
      · cases hr
      · rename_i bs hbs
        cases hr
        intro p hp
        rcases List.mem_cons.1 hp with rfl | hp
        · exact P_get (h x (by simp)) hb
        · exact P_get (P_mapLed (fun y hy => h y (by simp [hy]))) hbs p hp

theorem P_map {α : Type} {e : St} {f : α → R Prog} : ∀ {xs : List α}, (∀ x ∈ xs, P (f x) (Kid e)) → P (mapR f xs) (Kids e)
  | [], _ => by refine P_of fun r hr => ?_; cases hr; exact Kids_nil
  | x :: xs, h => by
    refine P_of fun r hr => ?_
    rw [mapR] at hr
    split at hr
    · cases hr
    · rename_i b hb
      split at hr
      · cases hr
      · rename_i bs hbs
        cases hr
        exact Kids_cons (P_get (h x (by simp)) hb) (P_get (P_map (fun y hy => h y (by simp [hy]))) hbs)

theorem P_mapM {α : Type} {e : St} {f : α → R (Bool × Prog)} : ∀ {xs : List α}, (∀ x ∈ xs, P (f x) (fun m => Kid e m.2)) →
    P (mapR f xs) (Mems e)
  | [], _ => by refine P_of fun r hr => ?_; cases hr; intro m hm; cases hm
  | x :: xs, h => by
    refine P_of fun r hr => ?_
    rw [mapR] at hr
    split at hr
    · cases hr
    · rename_i b hb
      split at hr
      · cases hr
      · rename_i bs hbs
        cases hr
        intro m hm
        rcases List.mem_cons.1 hm with rfl | hm
        · exact P_get (Q := fun m => Kid e m.2) (h x (by simp)) hb
        · exact P_get (P_mapM (fun y hy => h y (by simp [hy]))) hbs m hm

/-- The state in which the programs of a class end. -/
def endOf : Cls → St
  | .annotation => .M
  | .modifiers => .L
  | _ => .N

/-- Trees with trimmed texts, apart from the texts of the comments; these have no children and no field. -/
structure Fit (root : Node) : Prop where
  text : ∀ l, In root l → l.extra = false → Tight l.value
  kind : ∀ l, In root l → Tight l.kind.toList
  full : ∀ l, In root l → Lines.fullKinds.contains l.kind = true → l.childrenVec ≠ []
  upd : ∀ l, In root l → l.kind = "for_statement" → l.tryCByN "update" ≠ none
  grp : ∀ l, In root l → l.kind = "group_by_clause" → l.childrenVec.filter (fun c => c.kind != "having_clause") ≠ []
  asg : ∀ l, In root l → l.kind = "variable_declarator" → l.tryCByN "value" ≠ none → l.tryCByK "assignment_operator" ≠ none
  look : ∀ l, In root l → l.kind ≠ "using_lookup_clause" ∧ l.kind ≠ "using_lookup_bind_clause"
  note : ∀ l, In root l → l.extra = true → l.children = [] ∧ l.node.field = none ∧ (l.kind = "line_comment" ∨ l.kind = "block_comment")

/-- The setting of a constructor for `n`: a tree with trimmed texts, punctuation without comments and constructors whose
programs behave; the children of `n` end in `x`. -/
structure Env (root : Node) (n : Loc) (x : St) (rec : Rec) : Prop extends Fit root where
  call : ∀ c l, In root l → hush c = true → plainly c = true → P (rec c l) (Kid (endOf c))
  calm : ∀ c l, In root l → memberKinds.contains l.kind = false → plainly c = true → P (rec c l) (Kid (endOf c))
  near : ∀ c l, l ∈ n.children → plainly c = true → P (rec c l) (Kid (up (endOf c) x))
  own : ∀ c l, l ∈ n.children → pst l.id = .N → plainly c = true → P (rec c l) (Kid (endOf c))
  lone : ∀ c, n.childrenVec = [c] → c.kind = "explicit_constructor_invocation" → pst c.id = .N
  self : ∀ c, plainly c = true → P (rec c n) (Kid (up (endOf c) (pst n.id)))
  led : ∀ c l, In root l → hush c = true → ledCls c = true → P (rec c l) Led
  ledSelf : ∀ c, ledCls c = true → Quiet n.id → P (rec c n) Led
  args : ∀ l, In root l → P (rec .annotationArgumentList l) (fun p => T .N [p] .N)
  kids : ∀ l ∈ n.children, pst l.id ≤ x
  punc : ∀ l, In root l → QuietO (Punc.from l)
  inner : ∀ l, In root l → QuietO (Punc.fromInner l)
  semi : ∀ l, In root l → ∀ s ∈ l.children, s.kind = ";" → Quiet s.id

section
variable {root : Node} {rec : Rec} {n : Loc} {x : St}

theorem Env.textT (E : Env root n x rec) (l : Loc) (hl : In root l) (hx : l.extra = false) : Tight l.value := E.text l hl hx
theorem Env.exN (E : Env root n x rec) {m c : Loc} {k : String} (hm : In root m) (hc : m.tryCByN k = some c) : c.extra = false := by
  cases he : c.extra with
  | false => rfl
  | true =>
    have hf := (E.note c (in_tryCByN hm hc) he).2.1
    have := List.find?_some hc
    rw [hf] at this
    cases this
theorem Env.exK (E : Env root n x rec) {m c : Loc} {k : String} (hm : In root m) (hc : m.tryCByK k = some c)
    (hk : k ≠ "line_comment" ∧ k ≠ "block_comment") : c.extra = false := by
  cases he : c.extra with
  | false => rfl
  | true =>
    have hf := (E.note c (in_tryCByK hm hc) he).2.2
    have hb := List.find?_some hc
    have := eq_of_beq hb
    rw [this] at hf
    rcases hf with h | h
    · exact absurd h hk.1
    · exact absurd h hk.2
theorem Env.exCN (E : Env root n x rec) {m c : Loc} {k : String} (hm : In root m) (hc : m.cByN k = .ok c) : c.extra = false := by
  unfold Loc.cByN at hc
  split at hc
  · rename_i h; cases hc; exact E.exN hm h
  · cases hc
theorem Env.exLast (E : Env root n x rec) {m c : Loc} {k : String} {cs : List Loc} (hm : In root m) (hc : m.csByK k = .ok cs)
    (h : cs.getLast? = some c) (hk : k ≠ "line_comment" ∧ k ≠ "block_comment") : c.extra = false := by
  have hmem : c ∈ m.namedChildren.filter (fun c => c.kind == k) := by
    unfold Loc.csByK at hc
    split at hc
    · cases hc
    · cases hc
      exact List.mem_of_getLast? h
  rw [List.mem_filter] at hmem
  have hkd := eq_of_beq hmem.2
  cases he : c.extra with
  | false => rfl
  | true =>
    have hf := (E.note c (in_named hm hmem.1) he).2.2
    rw [hkd] at hf
    rcases hf with h | h
    · exact absurd h hk.1
    · exact absurd h hk.2
omit [Gate] K in
theorem ex_firstC {m c : Loc} (hc : m.firstC = .ok c) : c.extra = false := by
  unfold Loc.firstC at hc
  split at hc
  · rename_i h; cases hc; have := List.find?_some h; simpa using this
  · cases hc
omit [Gate] K in
theorem ex_first {m c : Loc} (hc : m.tryFirstC = some c) : c.extra = false := by
  have := List.find?_some hc
  simpa using this
omit [Gate] K in
theorem ex_vec {m c : Loc} (hc : c ∈ m.childrenVec) : c.extra = false := by
  have := (List.mem_filter.1 hc).2
  simpa using this
theorem Env.kindT (E : Env root n x rec) (l : Loc) (hl : In root l) : Tight l.kind.toList := E.kind l hl
theorem Env.recP (E : Env root n x rec) (c : Cls) (l : Loc) (hl : In root l) (hc : (hush c && plainly c) = true) :
    P (rec c l) (Kid (endOf c)) := by rw [Bool.and_eq_true] at hc; exact E.call c l hl hc.1 hc.2
theorem Env.optP (E : Env root n x rec) {c : Cls} {o : Option Loc} (h : InO root o) (hc : (hush c && plainly c) = true) :
    P (optR o (rec c)) (OptK (endOf c)) := P_opt (fun x hx => E.recP c x (InO_mem h hx) hc)
theorem Env.mapP (E : Env root n x rec) {c : Cls} {xs : List Loc} (h : InL root xs) (hc : (hush c && plainly c) = true) :
    P (mapR (rec c) xs) (Kids (endOf c)) := P_map (fun x hx => E.recP c x (InL_mem h hx) hc)
theorem Env.ledP (E : Env root n x rec) (c : Cls) (l : Loc) (hl : In root l) (hc : (hush c && ledCls c) = true) : P (rec c l) Led := by
  rw [Bool.and_eq_true] at hc; exact E.led c l hl hc.1 hc.2
theorem Env.optLed (E : Env root n x rec) {c : Cls} {o : Option Loc} (h : InO root o) (hc : (hush c && ledCls c) = true) :
    P (optR o (rec c)) OptLed := P_optLed (fun x hx => E.ledP c x (InO_mem h hx) hc)
theorem Env.mapLed (E : Env root n x rec) {c : Cls} {xs : List Loc} (h : InL root xs) (hc : (hush c && ledCls c) = true) :
    P (mapR (rec c) xs) Leds := P_mapLed (fun x hx => E.ledP c x (InL_mem h hx) hc)
theorem Env.member (E : Env root n x rec) {cfg : Cfg} {c : Cls} {l : Loc} (hl : l ∈ n.children) (hc : plainly c = true) :
    P (Prog.New.bodyMember cfg rec c l) (fun m => Kid (up (endOf c) x) m.2) := by
  refine P_of (fun m hm => ?_)
  unfold Prog.New.bodyMember at hm
  split at hm
  · cases hm
  · rename_i p hp
    split at hm
    · cases hm
    · cases hm; exact P_get (E.near c l hl hc) hp
theorem Env.members (E : Env root n x rec) {cfg : Cfg} {c : Cls} {xs : List Loc} (h : ∀ l ∈ xs, l ∈ n.children) (hc : plainly c = true) :
    P (mapR (Prog.New.bodyMember cfg rec c) xs) (Mems (up (endOf c) x)) := P_mapM (fun x hx => E.member (h x hx) hc)
theorem Env.dispatch (E : Env root n x rec) {tbl : List (String × Cls)} {l : Loc} {e : St} (hl : In root l)
    (h : tbl.all (fun x => decide (endOf x.2 ≤ e) && (hush x.2 && plainly x.2)) = true) :
    P (Prog.New.dispatch rec tbl l) (Kid e) := by
  refine P_of (fun p hp => ?_)
  unfold Prog.New.dispatch at hp
  split at hp
  · rename_i x hx
    have := List.all_eq_true.1 h x (List.mem_of_find?_eq_some hx)
    rw [Bool.and_eq_true, decide_eq_true_eq] at this
    exact Kid_le (P_get (E.recP _ _ hl this.2) hp) this.1
  · cases hp
theorem Env.dispatchN (E : Env root n .N rec) {tbl : List (String × Cls)} {l : Loc} (hl : l ∈ n.children)
    (h : tbl.all (fun x => decide (endOf x.2 = .N) && plainly x.2) = true) :
    P (Prog.New.dispatch rec tbl l) (Kid .N) := by
  refine P_of (fun p hp => ?_)
  unfold Prog.New.dispatch at hp
  split at hp
  · rename_i x hx
    have := List.all_eq_true.1 h x (List.mem_of_find?_eq_some hx)
    rw [Bool.and_eq_true, decide_eq_true_eq] at this
    have h' := P_get (E.near _ _ hl this.2) hp
    rw [this.1, up_N] at h'
    exact h'
  · cases hp
/-- A constructor that passes its own node on. -/
theorem Env.pass (E : Env root n x rec) {tbl : List (String × Cls)}
    (h : tbl.all (fun x => decide (endOf x.2 = .N) && plainly x.2) = true) :
    P (Prog.New.dispatch rec tbl n) (Kid (pst n.id)) := by
  refine P_of (fun p hp => ?_)
  unfold Prog.New.dispatch at hp
  split at hp
  · rename_i x hx
    have := List.all_eq_true.1 h x (List.mem_of_find?_eq_some hx)
    rw [Bool.and_eq_true, decide_eq_true_eq] at this
    have h' := P_get (E.self _ this.2) hp
    rw [this.1, up_N] at h'
    exact h'
  · cases hp
theorem Env.selfP (E : Env root n x rec) (c : Cls) (h : endOf c = .N) (hc : plainly c = true) : P (rec c n) (Kid (pst n.id)) := by
  have := E.self c hc
  rwa [h, up_N] at this
theorem Env.nearP (E : Env root n .N rec) (c : Cls) (l : Loc) (hl : l ∈ n.children) (h : endOf c = .N) (hc : plainly c = true) :
    P (rec c l) (Kid .N) := by
  have := E.near c l hl hc
  rwa [h, up_N] at this
theorem Env.nearO (E : Env root n .N rec) {c : Cls} {o : Option Loc} (hl : ∀ l, o = some l → l ∈ n.children) (h : endOf c = .N)
    (hc : plainly c = true) : P (optR o (rec c)) (OptK .N) := P_opt (fun l h' => E.nearP c l (hl l h') h hc)
theorem Env.nearL (E : Env root n .N rec) {c : Cls} {xs : List Loc} (hl : ∀ l ∈ xs, l ∈ n.children) (h : endOf c = .N)
    (hc : plainly c = true) : P (mapR (rec c) xs) (Kids .N) := P_map (fun l h' => E.nearP c l (hl l h') h hc)
theorem Env.dispatchs (E : Env root n x rec) {tbl : List (String × Cls)} {xs : List Loc} {e : St} (hl : InL root xs)
    (h : tbl.all (fun x => decide (endOf x.2 ≤ e) && (hush x.2 && plainly x.2)) = true) :
    P (mapR (Prog.New.dispatch rec tbl) xs) (Kids e) := P_map (fun x hx => E.dispatch (InL_mem hl hx) h)
theorem Env.cByK (_ : Env root n x rec) {m : Loc} (hn : In root m) {k : String} : P (m.cByK k) (In root) := P_of fun _ h => in_cByK hn h
theorem Env.cByN (_ : Env root n x rec) {m : Loc} (hn : In root m) {k : String} : P (m.cByN k) (In root) := P_of fun _ h => in_cByN hn h
theorem Env.firstC (_ : Env root n x rec) {m : Loc} (hn : In root m) : P m.firstC (In root) := P_of fun _ h => in_firstC hn h
theorem Env.csByK (_ : Env root n x rec) {m : Loc} (hn : In root m) {k : String} : P (m.csByK k) (fun cs => InL root cs ∧ cs ≠ []) := by
  refine P_of fun _ h => ⟨by unfold InL; exact fun _ hc => in_csByK hn h hc, ?_⟩
  rintro rfl
  unfold Loc.csByK at h
  split at h <;> simp_all
theorem Env.csByN (_ : Env root n x rec) {m : Loc} (hn : In root m) {k : String} : P (m.csByN k) (fun cs => InL root cs ∧ cs ≠ []) := by
  refine P_of fun _ h => ⟨by unfold InL; exact fun _ hc => in_csByN hn h hc, ?_⟩
  rintro rfl
  unfold Loc.csByN at h
  split at h
  · cases h
  · rename_i hne
    simp only [Except.ok.injEq] at h
    exact hne (by rw [h])
theorem Env.nextNamed (_ : Env root n x rec) {m : Loc} (hn : In root m) : P m.nextNamed (In root) := P_of fun _ h => in_nextNamed hn h
theorem Env.check (_ : Env root n x rec) {m : Loc} {k : String} : P (assertCheck m k) (fun _ => m.kind = k) := by
  refine P_of fun _ h => ?_
  unfold assertCheck at h
  split at h
  · rename_i hk; exact eq_of_beq hk
  · cases h
theorem Env.valueN (E : Env root n x rec) {m : Loc} (hn : In root m) {k : String} : P (m.cvalueByN k) Tight := by
  refine P_of fun s hs => ?_
  unfold Loc.cvalueByN at hs
  split at hs
  · rename_i c hc; cases hs; exact E.text c (in_tryCByN hn hc) (E.exN hn hc)
  · cases hs
theorem Env.valueK (E : Env root n x rec) {m : Loc} (hn : In root m) {k : String} (hk : k ≠ "line_comment" ∧ k ≠ "block_comment") : P (m.cvalueByK k) Tight := by
  refine P_of fun s hs => ?_
  unfold Loc.cvalueByK at hs
  split at hs
  · rename_i c hc; cases hs; exact E.text c (in_tryCByK hn hc) (E.exK hn hc hk)
  · cases hs
theorem Env.keyword (_ : Env root n x rec) {tbl : List (String × String)} {l : Loc}
    (h : tbl.all (fun x => decide (tx0 .L x.2.toList ≤ .N)) = true) : P (Prog.New.keyword tbl l) (Kid .N) := by
  refine P_of fun p hp => ?_
  unfold Prog.New.keyword at hp
  split at hp
  · rename_i x hx
    have := List.all_eq_true.1 h x (List.mem_of_find?_eq_some hx)
    rw [decide_eq_true_eq] at this
    cases hp
    exact Kid_of (T_tN this (St.le_refl _))
  · cases hp
end

theorem T_sAfter {a e : St} {x : Ins} {o c : String} {so pc : Prog} {ps qs : List Prog} (hk : Kids .N ps)
    (hx : SepOk .N x) (h1 : T0 a [Prog.t o, .indent so] .B ∧ T0 .N [pc, Prog.t c] .N ∧ T0 a [Prog.t o, Prog.t c] .N) (h : T .N qs e) :
    T a (Prog.surround ps x (.sAfter o so) (.before pc c) :: qs) e := T_surround hk hx h1.1 h1.2.1 h1.2.2 h
theorem T_sAfter' {a e : St} {x : Ins} {o c : String} {so : Prog} {ps qs : List Prog} (hk : Kids .N ps)
    (hx : SepOk .N x) (h1 : T0 a [Prog.t o, .indent so] .B ∧ T0 .N [Prog.t c] .N ∧ T0 a [Prog.t o, Prog.t c] .N) (h : T .N qs e) :
    T a (Prog.surround ps x (.sAfter o so) (.s c) :: qs) e := T_surround hk hx h1.1 h1.2.1 h1.2.2 h
theorem T_sPlain {a e : St} {x : Ins} {o c : String} {ps qs : List Prog} (hk : Kids .N ps)
    (hx : SepOk .N x) (h1 : T0 a [Prog.t o] .B ∧ T0 .N [Prog.t c] .N ∧ T0 a [Prog.t o, Prog.t c] .N) (h : T .N qs e) :
    T a (Prog.surround ps x (.s o) (.s c) :: qs) e := T_surround hk hx h1.1 h1.2.1 h1.2.2 h
theorem T_interMap {f : Loc → R Prog} {xs : List Loc} {a e : St} {x : Ins} {ps qs : List Prog}
    (hm : mapR f xs = .ok ps) (hne : xs ≠ []) (hk : Kids .N ps) (ha : a ≠ .bad)
    (hx : SepOk .N x) (h : T .N qs e) : T a (Prog.intersperse ps x :: qs) e :=
  T_interNe hk (mapR_ne hm hne) ha hx h
theorem T_declMap {f : Loc → R Prog} {xs : List Loc} {a e : St} {ps qs : List Prog}
    (hm : mapR f xs = .ok ps) (hne : xs ≠ []) (hk : Kids .N ps) (ha : a ≠ .bad) (h : T .N qs e) :
    T a (Prog.New.declaratorsDoc ps :: qs) e := by
  unfold Prog.New.declaratorsDoc
  split
  · exact T_kid (hk _ (by simp)) ha h
  · exact T_start (le_L ha) (T_group rfl (T_indent (T_interNe hk (mapR_ne hm hne) (by decide) (by decide) h)))
theorem T_interVec {root : Node} {rec : Rec} {m n : Loc} {z : St} {k : String} (E : Env root m z rec) (hn : In root n) {f : Loc → R Prog} {a e : St}
    {x : Ins} {ps qs : List Prog} (hm : mapR f n.childrenVec = .ok ps) (hkd : n.kind = k) (hf : fullKinds.contains k = true) (hk : Kids .N ps)
    (ha : a ≠ .bad) (hx : SepOk .N x) (h : T .N qs e) : T a (Prog.intersperse ps x :: qs) e :=
  T_interNe hk (mapR_ne hm (E.full n hn (hkd ▸ hf))) ha hx h
theorem T_interNeN {a e : St} {x : Ins} {ps qs : List Prog} (hne : ¬ ps.isEmpty = true) (hk : Kids .N ps) (ha : a ≠ .bad)
    (hx : SepOk .N x) (h : T .N qs e) : T a (Prog.intersperse ps x :: qs) e :=
  T_interNe hk (by rintro rfl; exact hne rfl) ha hx h
theorem T_inter1N {a e : St} {x : Ins} {p : Prog} {ps qs : List Prog} (hk : Kids .N (p :: ps)) (ha : a ≠ .bad) (hx : SepOk .N x)
    (h : T .N qs e) : T a (Prog.intersperse (p :: ps) x :: qs) e := T_inter1 hk ha hx h
theorem T_inter2N {a e : St} {x : Ins} {p : Prog} {ps ps' qs : List Prog} (hk : Kids .N ((p :: ps) ++ ps')) (ha : a ≠ .bad)
    (hx : SepOk .N x) (h : T .N qs e) : T a (Prog.intersperse ((p :: ps) ++ ps') x :: qs) e := T_inter1 hk ha hx h
theorem T_interMid {a e : St} {x : Ins} {p : Prog} {ps ps' qs : List Prog} (hk : Kids .N (ps ++ p :: ps')) (ha : a ≠ .bad)
    (hx : SepOk .N x) (h : T .N qs e) : T a (Prog.intersperse (ps ++ p :: ps') x :: qs) e := T_interNe hk (by simp) ha hx h
theorem T_interVec' {n : Loc} {f : Loc → R Prog} {a e : St} {x : Ins} {ps qs : List Prog} (hm : mapR f n.childrenVec = .ok ps)
    (hne : ¬ n.childrenVec.isEmpty = true) (hk : Kids .N ps) (ha : a ≠ .bad) (hx : SepOk .N x) (h : T .N qs e) :
    T a (Prog.intersperse ps x :: qs) e :=
  T_interNe hk (mapR_ne hm (fun h => hne (by rw [h]; rfl))) ha hx h
theorem T_guard {a e : St} {ps : List Prog} (h : T a ps e) : T a ps e := h
theorem T_seg {a e : St} {ps qs : List Prog} (h : Seg ps) (ha : a ≤ .N) (h' : T .N qs e) : T a (ps ++ qs) e :=
  T_start ha (T_app h h')
theorem T_segL {a e : St} {ps : List Prog} (h : Seg ps) (ha : a ≤ .N) (he : St.N ≤ e) : T a ps e := T_start ha (T_end h he)
theorem T_kidN {a e : St} {p : Prog} {qs : List Prog} (hk : Kid .N p) (ha : a ≠ .bad) (h : T .N qs e) : T a (p :: qs) e :=
  T_kid hk ha h
theorem T_kidB {a e : St} {p : Prog} {qs : List Prog} (hk : Kid .B p) (ha : a ≠ .bad) (h : T .B qs e) : T a (p :: qs) e :=
  T_kid hk ha h
theorem T_kidL {a e : St} {p : Prog} {qs : List Prog} (hk : Kid .L p) (ha : a ≠ .bad) (h : T .L qs e) : T a (p :: qs) e :=
  T_kid hk ha h
theorem T_led {a e : St} {p : Prog} {qs : List Prog} (hk : Led p) (ha : a ≤ .N) (h : T .N qs e) : T a (p :: qs) e :=
  T_start ha (T_cons hk h)
theorem T_optLed {a e : St} {o : Option Prog} {qs : List Prog} (hk : OptLed o) (ha : a ≤ .N) (h : T .N qs e) :
    T a (Prog.opt o ++ qs) e := by
  cases o with
  | none => exact T_start ha h
  | some p => exact T_led (hk p rfl) ha h
theorem T_leds {a e : St} {ps qs : List Prog} (hk : Leds ps) (ha : a ≤ .N) (h : T .N qs e) : T a (ps ++ qs) e := by
  induction ps generalizing a with
  | nil => exact T_start ha h
  | cons p ps ih => exact T_led (hk p (by simp)) ha (ih (fun q hq => hk q (by simp [hq])) (by decide))
theorem Led_of {p : Prog} (h : T .N [p] .N) : Led p := h
theorem P_dml {n : Loc} : P (Prog.New.dmlTypeVariant n) (Kid .N) := by
  refine P_of fun p hp => ?_
  unfold Prog.New.dmlTypeVariant at hp
  split at hp
  · rename_i h
    cases hp
    simp only [List.mem_cons, List.not_mem_nil, or_false] at h
    rcases h with h | h | h | h | h | h <;> (rw [h]; exact Kid_of (T_tN (by decide) (St.le_refl _)))
  · cases hp

theorem T_run {a : St} {p : Prog} (h : T a [p] .B) : run a (syms K.ro K.cm p) ≠ .bad := by
  unfold T at h
  rw [symss, symss, List.append_nil] at h
  intro hb
  rw [hb] at h
  exact absurd h (by decide)

theorem T_bwcpI {root : Node} {n m : Loc} {x : St} {rec : Rec} {a e : St} {ps qs : List Prog} (E : Env root m x rec) (hn : In root n)
    (ha : a ≠ .bad) (h : T .L ps .N) (h' : T (pst n.id) qs e) : T a (Prog.New.bwcp n ps :: qs) e := T_bwcp (E.punc n hn) ha h h'
theorem T_bwcpN {root : Node} {n m : Loc} {x : St} {rec : Rec} {a e : St} {ps qs : List Prog} (hq : Quiet n.id) (E : Env root m x rec)
    (hn : In root n) (h : T a ps .N) (h' : T .N qs e) : T a (Prog.New.bwcp n ps :: qs) e := T_bwcp' hq (E.punc n hn) (by decide) h h'
theorem T_bwcpB {root : Node} {n m : Loc} {x : St} {rec : Rec} {a e : St} {ps qs : List Prog} (hq : Quiet n.id) (E : Env root m x rec)
    (hn : In root n) (h : T a ps .B) (h' : T .B qs e) : T a (Prog.New.bwcp n ps :: qs) e := T_bwcp' hq (E.punc n hn) (by decide) h h'
theorem Env.ledMe {root : Node} {n : Loc} {x : St} {rec : Rec} (E : Env root n x rec) (c : Cls) (hq : Quiet n.id) (hc : ledCls c = true) :
    P (rec c n) Led := E.ledSelf c hc hq

attribute [irreducible] T Seg Kid Kids OptK Mems SepOk Led Leds OptLed

/-- The order of states. -/
macro "els" : tactic => `(tactic| first | decide | exact St.le_refl _ | exact St.N_le _ | exact pst_le)
/-- No bad state. -/
macro "enb" : tactic => `(tactic| first | decide | exact pst_ne)

/-- Hypotheses about kids, up to the end state of their class. -/
macro "eh" : tactic => `(tactic| with_reducible first
  | assumption
  | exact OptK_get ‹_›
  | (refine Kid_last ?_ ?_ <;> assumption))

/-- Nodes that are not comments. -/
macro "nex" : tactic => `(tactic| with_reducible first
  | assumption
  | (refine Env.exN ‹_› ?_ (by assumption); ninn)
  | (refine Env.exK ‹_› ?_ (by assumption) ?_; (· ninn); (· decide))
  | (refine Env.exCN ‹_› ?_ (by assumption); ninn)
  | (refine Env.exLast ‹_› ?_ (by assumption) (by assumption) ?_; (· assumption); (· decide))
  | exact ex_first (by assumption)
  | exact ex_firstC (by assumption)
  | exact ex_vec (by assumption))
/-- Texts of the tree. -/
macro "el" : tactic => `(tactic| with_reducible first
  | assumption
  | (refine Env.textT ‹_› _ ?_ ?_; (· ninn); (· nex))
  | (refine Tight_lower (Env.textT ‹_› _ ?_ ?_); (· ninn); (· nex))
  | (refine Tight_upper (Env.textT ‹_› _ ?_ ?_); (· ninn); (· nex))
  | (refine Tight_quote ?_; assumption)
  | (refine Tight_quote (Env.textT ‹_› _ ?_ ?_); (· ninn); (· nex))
  | (refine Tight_colon (Tight_upper ?_) ?_ <;> assumption))

/-- One step of the machine. -/
syntax "es" : tactic
/-- Kids of a list. -/
syntax "ek" : tactic

macro_rules
  | `(tactic| ek) => `(tactic| first
    | eh
    | with_reducible exact Kids_nil
    | ((with_reducible refine Kids_cons ?_ ?_) <;> ek)
    | ((with_reducible refine Kids_append ?_ ?_) <;> ek)
    | ((with_reducible refine Kids_opt ?_); eh)
    | ((with_reducible refine Kids_ite ?_ ?_) <;> ek)
    | ((with_reducible refine Kid_of ?_); repeat' es))

macro_rules
  | `(tactic| es) => `(tactic| first
    | ((with_reducible refine T_nil ?_); els)
    | ((with_reducible refine T_kidN ?_ ?_ ?_); (· eh); (· decide))
    | ((with_reducible refine T_kidB ?_ ?_ ?_); (· eh); (· decide))
    | ((with_reducible refine T_kidL ?_ ?_ ?_); (· eh); (· decide))
    | ((with_reducible refine T_led ?_ ?_ ?_); (· eh); (· decide))
    | ((with_reducible refine T_tN ?_ ?_); (· decide))
    | ((with_reducible refine T_tB ?_ ?_); (· decide))
    | ((with_reducible refine T_kindt ?_ ?_ ?_); (· with_reducible exact Env.kindT ‹_› _ ‹_›); (· decide))
    | ((with_reducible refine T_bracketBody ?_ ?_ ?_); (· eh); (· decide))
    | ((with_reducible refine T_declMap (by assumption) (by assumption) ?_ ?_ ?_); (· eh); (· decide))
    | ((with_reducible refine T_declarators ?_ ?_ ?_); (· eh); (· decide))
    | ((with_reducible refine T_chain ?_ ?_ ?_ ?_); (· eh); (· decide))
    | ((with_reducible refine T_wcp ?_ ?_ ?_ ?_); (· first | exact quietO_none | exact Env.inner ‹_› _ ‹_›); (· enb))
    | ((with_reducible refine T_wcpa ?_ ?_ ?_ ?_); (· first | exact quietO_none | exact Env.inner ‹_› _ ‹_›); (· enb))
    | ((with_reducible refine T_spaced ?_ ?_ ?_); (· eh); (· decide))
    | ((with_reducible refine T_spacedL ?_ ?_ ?_); (· eh); (· decide))
    | ((with_reducible refine T_annotated ?_ ?_ ?_ ?_); (· eh); (· el); (· decide); (· decide))
    | ((with_reducible refine T_tL ?_ ?_); (· decide))
    | ((with_reducible refine T_tR ?_ ?_); (· decide))
    | ((with_reducible refine T_tLR ?_ ?_); (· decide))
    | ((with_reducible refine T_nilp ?_ ?_); (· rfl))
    | ((with_reducible refine T_val ?_ ?_ ?_); (· el); (· decide))
    | ((with_reducible refine T_txtR ?_ ?_ ?_); (· el); (· decide))
    | ((with_reducible refine T_txtLR ?_ ?_ ?_); (· el); (· decide))
    | ((with_reducible refine T_nlLast ?_ ?_); (· decide); (· els; done))
    | ((with_reducible refine T_nl ?_ ?_); (· decide))
    | ((with_reducible refine T_soft ?_ ?_); (· decide))
    | ((with_reducible refine T_maybe ?_ ?_); (· decide))
    | ((with_reducible refine T_bwc' ‹Quiet _› ?_); simp only [List.cons_append, List.nil_append, List.append_assoc])
    | ((with_reducible refine T_bwc ?_ ?_ ?_); (· enb))
    | ((with_reducible refine T_bwcpN ‹Quiet _› ‹_› ?_ ?_ ?_); (· ninn); (· (repeat' es); done))
    | ((with_reducible refine T_bwcpB ‹Quiet _› ‹_› ?_ ?_ ?_); (· ninn); (· (repeat' es); done))
    | ((with_reducible refine T_bwcpI ‹_› ?_ ?_ ?_ ?_); (· ninn); (· enb))
    | ((with_reducible refine T_paren ?_ ?_ ?_); (· ek); (· decide))
    | ((with_reducible refine T_inter1N ?_ ?_ ?_ ?_); (· ek); (· decide); (· decide))
    | ((with_reducible refine T_inter2N ?_ ?_ ?_ ?_); (· ek); (· decide); (· decide))
    | ((with_reducible refine T_interMap (by assumption) (by assumption) ?_ ?_ ?_ ?_); (· ek); (· decide); (· decide))
    | ((with_reducible refine T_interVec ‹_› ‹_› (by assumption) (by assumption) ?_ ?_ ?_ ?_ ?_); (· decide); (· ek); (· decide); (· decide))
    | ((with_reducible refine T_interNeN ‹_› ?_ ?_ ?_ ?_); (· ek); (· decide); (· decide))
    | ((with_reducible refine T_interMid ?_ ?_ ?_ ?_); (· ek); (· decide); (· decide))
    | ((with_reducible refine T_interVec' (by assumption) ‹_› ?_ ?_ ?_ ?_); (· ek); (· decide); (· decide))
    | ((with_reducible refine T_inter ?_ ?_ ?_ ?_); (· ek); (· decide); (· decide))
    | ((with_reducible refine T_sAfter ?_ ?_ ?_ ?_); (· ek); (· decide); (· decide))
    | ((with_reducible refine T_sAfter' ?_ ?_ ?_ ?_); (· ek); (· decide); (· decide))
    | ((with_reducible refine T_sPlain ?_ ?_ ?_ ?_); (· ek); (· decide); (· decide))
    | ((with_reducible refine T_surroundBody ?_ ?_ ?_); (· eh); (· decide))
    | ((with_reducible refine T_interBody ?_ ?_ ?_); (· eh); (· decide))
    | ((with_reducible refine T_concat_last ?_))
    | ((with_reducible refine T_concat ?_); simp only [List.cons_append, List.nil_append, List.append_assoc])
    | ((with_reducible refine T_group ?_ ?_); (· rfl))
    | (with_reducible refine T_indent ?_)
    | (with_reducible refine T_dedent ?_)
    | (with_reducible refine T_force ?_)
    | (with_reducible refine T_pre' ‹Quiet _› ?_)
    | ((with_reducible refine T_pre ?_ ?_); (· enb))
    | (with_reducible refine T_post' ‹Quiet _› ?_)
    | ((with_reducible refine T_post ?_ ?_); (· rfl))
    | (with_reducible refine T_ifDangling ?_)
    | (with_reducible refine T_rootDangling ?_)
    | ((with_reducible refine T_optN ?_ ?_ ?_); (· eh); (· decide))
    | ((with_reducible refine T_optLed ?_ ?_ ?_); (· eh); (· decide))
    | ((with_reducible refine T_optL ?_))
    | ((with_reducible refine T_optB ?_ ?_ ?_); (· eh); (· decide))
    | ((with_reducible refine T_kidsN ?_ ?_ ?_); (· eh); (· decide))
    | ((with_reducible refine T_kidsB ?_ ?_ ?_); (· eh); (· decide))
    | ((with_reducible refine T_leds ?_ ?_ ?_); (· eh); (· decide))
    | ((with_reducible refine T_iteL ?_ ?_))
    | ((with_reducible refine T_ite ?_ ?_) <;> simp only [List.cons_append, List.nil_append, List.append_assoc])
    | ((with_reducible refine T_ite1 ?_ ?_) <;> simp only [List.cons_append, List.nil_append, List.append_assoc])
    | ((with_reducible refine T_seg ?_ ?_ ?_); (· assumption); (· decide))
    | ((with_reducible refine T_segL ?_ ?_ ?_); (· assumption); (· decide); (· decide))
    | ((with_reducible refine T_guard ?_); split)
    | (simp only [List.cons_append, List.nil_append, List.append_nil, List.append_assoc]))

/-- Binds of a constructor. -/
macro "eb" E:ident hn:ident : tactic => `(tactic| first
  | ((with_reducible refine P_bind (Env.recP $E _ _ ?_ ?_) (fun _ _ _ => ?_)); (· ninn); (· rfl))
  | ((with_reducible refine P_bind (Env.optP $E ?_ ?_) (fun _ _ _ => ?_)); (· nino); (· rfl))
  | ((with_reducible refine P_bind (Env.ledP $E _ _ ?_ ?_) (fun _ _ _ => ?_)); (· ninn); (· rfl))
  | ((with_reducible refine P_bind (Env.optLed $E ?_ ?_) (fun _ _ _ => ?_)); (· nino); (· rfl))
  | ((with_reducible refine P_bind (Env.mapLed $E ?_ ?_) (fun _ _ _ => ?_)); (· ninls); (· rfl))
  | ((with_reducible refine P_bind (Env.members $E ?_ ?_) (fun _ _ _ => ?_)); (· chl); (· rfl))
  | ((with_reducible refine P_bind (Env.mapP $E ?_ ?_) (fun _ _ _ => ?_)); (· ninls); (· rfl))
  | ((with_reducible refine P_bind (Env.dispatchs $E (e := .N) ?_ ?_) (fun _ _ _ => ?_)); (· ninls); (· decide))
  | ((with_reducible refine P_bind (Env.member $E ?_ ?_) (fun _ _ _ => ?_)); (· chn); (· rfl))
  | ((with_reducible refine P_bind (Env.nearP $E _ _ ?_ ?_ ?_) (fun _ _ _ => ?_)); (· chn); (· rfl); (· rfl))
  | ((with_reducible refine P_bind (Env.nearO $E ?_ ?_ ?_) (fun _ _ _ => ?_)); (· cho); (· rfl); (· rfl))
  | ((with_reducible refine P_bind (Env.nearL $E ?_ ?_ ?_) (fun _ _ _ => ?_)); (· chl); (· rfl); (· rfl))
  | ((with_reducible refine P_bind (Env.selfP $E _ ?_ ?_) (fun _ _ _ => ?_)); (· rfl); (· rfl))
  | ((with_reducible refine P_bind (Env.ledMe $E _ ‹Quiet _› ?_) (fun _ _ _ => ?_)); (· rfl))
  | with_reducible refine P_bind (Env.check $E) (fun _ _ _ => ?_)
  | ((with_reducible refine P_bind (Env.valueN $E ?_) (fun _ _ _ => ?_)); (· ninn))
  | ((with_reducible refine P_bind (Env.valueK $E ?_ ?_) (fun _ _ _ => ?_)); (· ninn); (· decide))
  | ((with_reducible refine P_bind (Env.cByK $E ?_) (fun _ _ _ => ?_)); (· ninn))
  | ((with_reducible refine P_bind (Env.cByN $E ?_) (fun _ _ _ => ?_)); (· ninn))
  | ((with_reducible refine P_bind (Env.firstC $E ?_) (fun _ _ _ => ?_)); (· ninn))
  | ((with_reducible refine P_bind (Env.csByK $E ?_) (fun _ _ ⟨_, _⟩ => ?_)); (· ninn))
  | ((with_reducible refine P_bind (Env.csByN $E ?_) (fun _ _ ⟨_, _⟩ => ?_)); (· ninn))
  | ((with_reducible refine P_bind (Env.nextNamed $E ?_) (fun _ _ _ => ?_)); (· ninn))
  | with_reducible exact P_err
  | ((with_reducible refine Env.selfP $E _ ?_ ?_); (· rfl); (· rfl))
  | ((with_reducible refine Env.pass $E ?_); (· decide))
  | ((with_reducible refine P_mono (Env.recP $E _ _ ?_ ?_) (fun _ h => Kid_le h ?_)); (· ninn); (· rfl); (· els))
  | ((with_reducible refine P_mono (Env.nearP $E _ _ ?_ ?_ ?_) (fun _ h => Kid_le h ?_)); (· chn); (· rfl); (· rfl); (· els))
  | ((with_reducible refine P_mono (Env.dispatch $E (e := .N) ?_ ?_) (fun _ h => Kid_le h ?_)); (· ninn); (· decide); (· els))
  | ((with_reducible refine P_mono (Env.dispatchN $E ?_ ?_) (fun _ h => Kid_le h ?_)); (· chn); (· decide); (· els))
  | ((with_reducible refine P_mono (Env.keyword $E ?_) (fun _ h => Kid_le h ?_)); (· decide); (· els))
  | with_reducible refine P_bind (Q := Kid .N) ?_ (fun _ _ _ => ?_)
  | with_reducible refine P_bind (Q := Seg) ?_ (fun _ _ _ => ?_)
  | with_reducible refine P_bind (Q := fun _ => True) P_any (fun _ _ _ => ?_)
  | ((with_reducible refine P_ok (Kid_of ?_)))
  | ((with_reducible refine P_ok (Seg_of ?_)))
  | ((with_reducible refine P_ok (Led_of ?_)))
  | ((with_reducible refine P_pure (Kid_of ?_)))
  | ((with_reducible refine P_guard ?_); split))

/-- A constructor whose programs always print something. -/
macro "et" E:ident hn:ident : tactic => `(tactic| (
  repeat' eb $E $hn
  all_goals try simp only [endOf, up_N, Prog.groupConcat, Prog.groupIndent, Prog.groupIndentConcat, Prog.groupSurround] at *
  all_goals try simp only [List.cons_append, List.nil_append, List.append_assoc]
  all_goals try repeat' es))

end Afmt.Ends
