import Verif.PrinterSem
import Verif.Builder

/-!
# Helper lemmas about the printer
-/

namespace Afmt

/-! ### Documents whose only choices are groups -/

mutual
/-- Every `choice x y` in the document is a group, i.e. `x = flat y` (the only way `DocBuilder` is used). -/
def Doc.GroupOnly : Doc → Prop
  | .flat d => d.GroupOnly
  | .indent _ d => d.GroupOnly
  | .dedent _ d => d.GroupOnly
  | .concat ds => Doc.GroupOnlys ds
  | .choice x y => x = .flat y ∧ y.GroupOnly
  | _ => True
def Doc.GroupOnlys : List Doc → Prop
  | [] => True
  | d :: ds => d.GroupOnly ∧ Doc.GroupOnlys ds
end

mutual
/-- The text leaves of a document in order, following the second alternative of choices. -/
def Doc.leaves : Doc → List Str
  | .text s _ => [s]
  | .flat d => d.leaves
  | .indent _ d => d.leaves
  | .dedent _ d => d.leaves
  | .concat ds => Doc.leavess ds
  | .choice _ y => y.leaves
  | _ => []
def Doc.leavess : List Doc → List Str
  | [] => []
  | d :: ds => d.leaves ++ Doc.leavess ds
end

theorem Doc.groupOnlys_iff {ds : List Doc} : Doc.GroupOnlys ds ↔ ∀ d ∈ ds, d.GroupOnly := by
  induction ds with
  | nil => simp [Doc.GroupOnlys]
  | cons d ds ih => simp [Doc.GroupOnlys, ih]

theorem Doc.leavess_append (a b : List Doc) : Doc.leavess (a ++ b) = Doc.leavess a ++ Doc.leavess b := by
  induction a with
  | nil => simp [Doc.leavess]
  | cons d ds ih => simp [Doc.leavess, ih]

theorem PSt.flush_ink (st : PSt) : ink st.flush.out = ink st.out := by
  unfold PSt.flush; split <;> simp

theorem PSt.flush_pend (st : PSt) : st.flush.pend = none := by
  unfold PSt.flush; split <;> simp_all

theorem PSt.flush_of_none {st : PSt} (h : st.pend = none) : st.flush = st := by
  unfold PSt.flush; rw [h]

theorem PSt.putText_ink (st : PSt) (s : Str) (n : Nat) : ink (st.putText s n).out = ink st.out ++ ink s := by
  unfold PSt.putText
  split
  · next h => rw [h.1]; simp
  · simp

theorem PSt.putText_pend (st : PSt) (s : Str) (n : Nat) : (st.putText s n).pend = st.pend := by
  unfold PSt.putText; split <;> rfl

mutual
theorem pr_ink (w : Nat) : ∀ (d : Doc) (i : Nat) (fl : Bool) (rest : List Chunk) (st : PSt), d.GroupOnly →
    ink (pr w d i fl rest st).out = ink st.out ++ ink d.leaves.flatten
  | .newline, i, fl, rest, st, _ => by simp [pr, Doc.leaves]
  | .newlineWithNoIndent, i, fl, rest, st, _ => by simp [pr, Doc.leaves, PSt.bareNewline]
  | .softline, i, fl, rest, st, _ => by
      cases fl <;> simp [pr, Doc.leaves, PSt.putSpace]
  | .maybeline, i, fl, rest, st, _ => by
      cases fl <;> simp [pr, Doc.leaves]
  | .forceBreak, i, fl, rest, st, _ => by simp [pr, Doc.leaves]
  | .text s n, i, fl, rest, st, _ => by
      simp [pr, Doc.leaves, PSt.putText_ink, PSt.flush_ink]
  | .flat d, i, fl, rest, st, h => by
      simpa [pr, Doc.leaves] using pr_ink w d i true rest st h
  | .indent n d, i, fl, rest, st, h => by
      simpa [pr, Doc.leaves] using pr_ink w d (i + n) fl rest st h
  | .dedent n d, i, fl, rest, st, h => by
      simpa [pr, Doc.leaves] using pr_ink w d (i - n) fl rest st h
  | .concat ds, i, fl, rest, st, h => by
      simpa [pr, Doc.leaves] using prs_ink w ds i fl rest st h
  | .choice x y, i, fl, rest, st, h => by
      obtain ⟨rfl, hy⟩ := h
      have h1 := fun fl => pr_ink w y i fl rest st.flush hy
      simp only [pr, Doc.leaves]
      split
      · rw [h1, PSt.flush_ink]
      · split <;> rw [h1, PSt.flush_ink]
theorem prs_ink (w : Nat) : ∀ (ds : List Doc) (i : Nat) (fl : Bool) (rest : List Chunk) (st : PSt),
    Doc.GroupOnlys ds → ink (prs w ds i fl rest st).out = ink st.out ++ ink (Doc.leavess ds).flatten
  | [], i, fl, rest, st, _ => by simp [prs, Doc.leavess]
  | d :: ds, i, fl, rest, st, h => by
      simp only [prs, Doc.leavess, List.flatten_append, ink_append]
      rw [prs_ink w ds i fl rest _ h.2, pr_ink w d i fl _ st h.1, List.append_assoc]
end

/-! ### Primitive operations of the printer -/

/-- The primitive effects the printer has on its state. -/
inductive Op where
  | pend (i : Nat)
  | bare
  | space
  | text (s : Str) (width : Nat)
  | flush

/-- Effect of a primitive operation. -/
def Op.run : Op → PSt → PSt
  | .pend i, st => { st with pend := some i }
  | .bare, st => st.bareNewline
  | .space, st => st.putSpace
  | .text s n, st => st.flush.putText s n
  | .flush, st => st.flush

def runOps (ops : List Op) (st : PSt) : PSt := ops.foldl (fun st op => op.run st) st

@[simp] theorem runOps_nil (st : PSt) : runOps [] st = st := rfl
@[simp] theorem runOps_cons (op : Op) (ops : List Op) (st : PSt) : runOps (op :: ops) st = runOps ops (op.run st) := rfl
theorem runOps_append (a b : List Op) (st : PSt) : runOps (a ++ b) st = runOps b (runOps a st) := by
  simp [runOps]

mutual
/-- `d.At i ℓ j`: leaf document `ℓ` occurs in `d` (in some alternative) and the indentation in force there is `j`, when
the indentation around `d` is `i`. -/
def Doc.At : Doc → Nat → Doc → Nat → Prop
  | .flat d, i, l, j => d.At i l j
  | .indent n d, i, l, j => d.At (i + n) l j
  | .dedent n d, i, l, j => d.At (i - n) l j
  | .concat ds, i, l, j => Doc.Ats ds i l j
  | .choice x y, i, l, j => x.At i l j ∨ y.At i l j
  | d, i, l, j => l = d ∧ j = i
def Doc.Ats : List Doc → Nat → Doc → Nat → Prop
  | [], _, _, _ => False
  | d :: ds, i, l, j => d.At i l j ∨ Doc.Ats ds i l j
end

/-- An operation is caused by some leaf of `d`. -/
def Op.FromAt (P : Doc → Nat → Prop) : Op → Prop
  | .pend j => P .newline j ∨ P .softline j ∨ P .maybeline j
  | .bare => ∃ j, P .newlineWithNoIndent j
  | .space => ∃ j, P .softline j
  | .text s n => ∃ j, P (.text s n) j
  | .flush => True

theorem Op.FromAt.mono {P Q : Doc → Nat → Prop} (h : ∀ l j, P l j → Q l j) {op : Op} (ho : op.FromAt P) :
    op.FromAt Q := by
  cases op <;> simp only [Op.FromAt] at *
  · rcases ho with ho | ho | ho
    · exact .inl (h _ _ ho)
    · exact .inr (.inl (h _ _ ho))
    · exact .inr (.inr (h _ _ ho))
  · exact ho.imp fun _ => h _ _
  · exact ho.imp fun _ => h _ _
  · exact ho.imp fun _ => h _ _

mutual
theorem pr_ops (w : Nat) : ∀ (d : Doc) (i : Nat) (fl : Bool) (rest : List Chunk) (st : PSt),
    ∃ ops, pr w d i fl rest st = runOps ops st ∧ ∀ op ∈ ops, op.FromAt (d.At i)
  | .newline, i, fl, rest, st => ⟨[.pend i], by simp [pr, Op.run], by simp [Op.FromAt, Doc.At]⟩
  | .newlineWithNoIndent, i, fl, rest, st => ⟨[.bare], by simp [pr, Op.run], by simp [Op.FromAt, Doc.At]⟩
  | .softline, i, fl, rest, st => by
      cases fl
      · exact ⟨[.pend i], by simp [pr, Op.run], by simp [Op.FromAt, Doc.At]⟩
      · exact ⟨[.space], by simp [pr, Op.run], by simp [Op.FromAt, Doc.At]⟩
  | .maybeline, i, fl, rest, st => by
      cases fl
      · exact ⟨[.pend i], by simp [pr, Op.run], by simp [Op.FromAt, Doc.At]⟩
      · exact ⟨[], by simp [pr], by simp⟩
  | .forceBreak, i, fl, rest, st => ⟨[], by simp [pr], by simp⟩
  | .text s n, i, fl, rest, st => ⟨[.text s n], by simp [pr, Op.run], by simp [Op.FromAt, Doc.At]⟩
  | .flat d, i, fl, rest, st => by
      simpa only [pr, Doc.At] using pr_ops w d i true rest st
  | .indent n d, i, fl, rest, st => by
      simpa only [pr, Doc.At] using pr_ops w d (i + n) fl rest st
  | .dedent n d, i, fl, rest, st => by
      simpa only [pr, Doc.At] using pr_ops w d (i - n) fl rest st
  | .concat ds, i, fl, rest, st => by
      simpa only [pr, Doc.At] using prs_ops w ds i fl rest st
  | .choice x y, i, fl, rest, st => by
      obtain ⟨o1, e1, p1⟩ := pr_ops w x i fl rest st.flush
      obtain ⟨o2, e2, p2⟩ := pr_ops w y i fl rest st.flush
      have q1 : ∀ op ∈ Op.flush :: o1, op.FromAt ((Doc.choice x y).At i) := by
        intro op h
        rcases List.mem_cons.1 h with rfl | h
        · trivial
        · exact (p1 op h).mono fun l j h => by simp only [Doc.At]; exact .inl h
      have q2 : ∀ op ∈ Op.flush :: o2, op.FromAt ((Doc.choice x y).At i) := by
        intro op h
        rcases List.mem_cons.1 h with rfl | h
        · trivial
        · exact (p2 op h).mono fun l j h => by simp only [Doc.At]; exact .inr h
      simp only [pr]
      split
      · exact ⟨_, by rw [e1]; rfl, q1⟩
      · split
        · exact ⟨_, by rw [e1]; rfl, q1⟩
        · exact ⟨_, by rw [e2]; rfl, q2⟩
theorem prs_ops (w : Nat) : ∀ (ds : List Doc) (i : Nat) (fl : Bool) (rest : List Chunk) (st : PSt),
    ∃ ops, prs w ds i fl rest st = runOps ops st ∧ ∀ op ∈ ops, op.FromAt (Doc.Ats ds i)
  | [], i, fl, rest, st => ⟨[], by simp [prs], by simp⟩
  | d :: ds, i, fl, rest, st => by
      obtain ⟨o1, e1, p1⟩ := pr_ops w d i fl (ds.map (fun d => { doc := d, indent := i, flat := fl }) ++ rest) st
      obtain ⟨o2, e2, p2⟩ := prs_ops w ds i fl rest
        (pr w d i fl (ds.map (fun d => { doc := d, indent := i, flat := fl }) ++ rest) st)
      refine ⟨o1 ++ o2, ?_, ?_⟩
      · rw [prs, e2, e1, runOps_append]
      · intro op h
        rcases List.mem_append.1 h with h | h
        · exact (p1 op h).mono fun l j h => by simp only [Doc.Ats]; exact .inl h
        · exact (p2 op h).mono fun l j h => by simp only [Doc.Ats]; exact .inr h
end

theorem prChunks_ops (w : Nat) (cs : List Chunk) (st : PSt) :
    ∃ ops, prChunks w cs st = runOps ops st ∧ ∀ op ∈ ops, op.FromAt (fun l j => ∃ c ∈ cs, c.doc.At c.indent l j) := by
  induction cs generalizing st with
  | nil => exact ⟨[], by simp [prChunks], by simp⟩
  | cons c cs ih =>
    obtain ⟨o1, e1, p1⟩ := pr_ops w c.doc c.indent c.flat cs st
    obtain ⟨o2, e2, p2⟩ := ih (pr w c.doc c.indent c.flat cs st)
    refine ⟨o1 ++ o2, ?_, ?_⟩
    · rw [prChunks, e2, e1, runOps_append]
    · intro op h
      rcases List.mem_append.1 h with h | h
      · exact (p1 op h).mono fun l j h => ⟨c, by simp, h⟩
      · exact (p2 op h).mono fun l j ⟨c, hc, h⟩ => ⟨c, by simp [hc], h⟩

/-! ### The output only grows -/

theorem Op.run_out (op : Op) (st : PSt) : ∃ t, (op.run st).out = st.out ++ t := by
  have hf : ∃ t, st.flush.out = st.out ++ t := by
    unfold PSt.flush; split
    · exact ⟨[], by simp⟩
    · exact ⟨_, rfl⟩
  cases op with
  | pend i => exact ⟨[], by simp [Op.run]⟩
  | bare => exact ⟨_, rfl⟩
  | space => exact ⟨_, rfl⟩
  | text s n =>
    obtain ⟨t, ht⟩ := hf
    simp only [Op.run, PSt.putText]
    split
    · exact ⟨t, ht⟩
    · exact ⟨t ++ s, by simp [ht]⟩
  | flush => exact hf

theorem runOps_out (ops : List Op) (st : PSt) : ∃ t, (runOps ops st).out = st.out ++ t := by
  induction ops generalizing st with
  | nil => exact ⟨[], by simp⟩
  | cons op ops ih =>
    obtain ⟨t, ht⟩ := ih (op.run st)
    obtain ⟨u, hu⟩ := op.run_out st
    exact ⟨u ++ t, by simp [ht, hu]⟩

/-! ### Once a newline is pending, nothing visible is added to the current line -/

/-- Relative to a base output, either a newline is still pending and only spaces were added, or the line has ended. -/
def LineOver (out0 : Str) (st : PSt) : Prop :=
  (st.pend.isSome = true ∧ ∃ k, st.out = out0 ++ spaces k) ∨ ∃ k t, st.out = out0 ++ spaces k ++ '\n' :: t

theorem LineOver.flush {out0 : Str} {st : PSt} (h : LineOver out0 st) : ∃ k t, st.flush.out = out0 ++ spaces k ++ '\n' :: t := by
  rcases h with ⟨hp, k, hk⟩ | ⟨k, t, hk⟩
  · cases hpd : st.pend with
    | none => simp [hpd] at hp
    | some i => exact ⟨k, spaces i, by simp [PSt.flush, hpd, hk]⟩
  · cases hpd : st.pend with
    | none => exact ⟨k, t, by simp [PSt.flush, hpd, hk]⟩
    | some i => exact ⟨k, t ++ '\n' :: spaces i, by simp [PSt.flush, hpd, hk]⟩

theorem LineOver.of_out {out0 : Str} {st : PSt} (h : ∃ k t, st.out = out0 ++ spaces k ++ '\n' :: t) : LineOver out0 st :=
  .inr h

theorem LineOver.append {out0 : Str} {a b : PSt} (h : ∃ k t, a.out = out0 ++ spaces k ++ '\n' :: t)
    (hb : ∃ t, b.out = a.out ++ t) : LineOver out0 b := by
  obtain ⟨k, t, h⟩ := h
  obtain ⟨u, hu⟩ := hb
  exact .inr ⟨k, t ++ u, by rw [hu, h]; simp⟩

theorem LineOver.run {out0 : Str} {st : PSt} (h : LineOver out0 st) (op : Op) : LineOver out0 (op.run st) := by
  cases op with
  | pend i =>
    rcases h with ⟨_, k, hk⟩ | h
    · exact .inl ⟨rfl, k, hk⟩
    · exact .inr h
  | bare =>
    rcases h with ⟨_, k, hk⟩ | ⟨k, t, hk⟩
    · exact .inr ⟨k, [], by simp [Op.run, PSt.bareNewline, hk]⟩
    · exact .inr ⟨k, t ++ ['\n'], by simp [Op.run, PSt.bareNewline, hk]⟩
  | space =>
    rcases h with ⟨hp, k, hk⟩ | ⟨k, t, hk⟩
    · exact .inl ⟨hp, k + 1, by
        simp [Op.run, PSt.putSpace, hk, spaces, List.replicate_succ']⟩
    · exact .inr ⟨k, t ++ [' '], by simp [Op.run, PSt.putSpace, hk]⟩
  | text s n =>
    refine LineOver.append h.flush ?_
    simp only [Op.run, PSt.putText]
    split
    · exact ⟨[], by simp⟩
    · exact ⟨s, by simp⟩
  | flush => exact .inr h.flush

theorem LineOver.runOps {out0 : Str} {st : PSt} (h : LineOver out0 st) (ops : List Op) :
    LineOver out0 (runOps ops st) := by
  induction ops generalizing st with
  | nil => exact h
  | cons op ops ih => exact ih (h.run op)

theorem LineOver.prChunks {out0 : Str} {st : PSt} (h : LineOver out0 st) (w : Nat) (cs : List Chunk) :
    LineOver out0 (prChunks w cs st) := by
  obtain ⟨ops, e, _⟩ := prChunks_ops w cs st
  rw [e]; exact h.runOps ops

/-! ### Visiting a sub-document -/

mutual
/-- `e` occurs as a sub-document of `d`, in both alternatives of every choice on the way. -/
inductive Doc.Occurs (e : Doc) : Doc → Prop
  | refl : Doc.Occurs e e
  | flat {d} : Doc.Occurs e d → Doc.Occurs e (.flat d)
  | indent {n d} : Doc.Occurs e d → Doc.Occurs e (.indent n d)
  | dedent {n d} : Doc.Occurs e d → Doc.Occurs e (.dedent n d)
  | concat {ds d} : d ∈ ds → Doc.Occurs e d → Doc.Occurs e (.concat ds)
  | choice {x y} : Doc.Occurs e x → Doc.Occurs e y → Doc.Occurs e (.choice x y)
end

/-- If `e` occurs in `d`, then printing `d` reaches a configuration with `e` on top of the stack. -/
theorem Doc.Occurs.visit {e d : Doc} (h : Doc.Occurs e d) (w : Nat) :
    ∀ (i : Nat) (fl : Bool) (rest : List Chunk) (st : PSt),
    ∃ i' fl' rest' st' ops, st' = runOps ops st ∧
      prChunks w rest (pr w d i fl rest st) = prChunks w rest' (pr w e i' fl' rest' st') := by
  induction h with
  | refl => intro i fl rest st; exact ⟨i, fl, rest, st, [], rfl, rfl⟩
  | flat _ ih => intro i fl rest st; simpa only [pr] using ih i true rest st
  | indent _ ih => intro i fl rest st; simpa only [pr] using ih _ fl rest st
  | dedent _ ih => intro i fl rest st; simpa only [pr] using ih _ fl rest st
  | @concat ds d hmem _ ih =>
    intro i fl rest st
    obtain ⟨a, b, rfl⟩ := List.append_of_mem hmem
    simp only [pr]
    have hsplit : prChunks w rest (prs w (a ++ d :: b) i fl rest st) =
        prChunks w (b.map (fun d => { doc := d, indent := i, flat := fl }) ++ rest)
          (pr w d i fl (b.map (fun d => { doc := d, indent := i, flat := fl }) ++ rest)
            (prs w a i fl ((d :: b).map (fun d => { doc := d, indent := i, flat := fl }) ++ rest) st)) := by
      rw [← prChunks_map]
      rw [List.map_append, List.append_assoc, prChunks_map]
      rfl
    obtain ⟨ops1, e1, _⟩ := prs_ops w a i fl ((d :: b).map (fun d => { doc := d, indent := i, flat := fl }) ++ rest) st
    obtain ⟨i', fl', rest', st', ops, hst, heq⟩ := ih i fl (b.map (fun d => { doc := d, indent := i, flat := fl }) ++ rest)
      (prs w a i fl ((d :: b).map (fun d => { doc := d, indent := i, flat := fl }) ++ rest) st)
    exact ⟨i', fl', rest', st', ops1 ++ ops, by rw [hst, e1, runOps_append], by rw [hsplit, heq]⟩
  | choice _ _ ihx ihy =>
    intro i fl rest st
    obtain ⟨i1, fl1, rest1, st1, ops1, hst1, heq1⟩ := ihx i fl rest st.flush
    obtain ⟨i2, fl2, rest2, st2, ops2, hst2, heq2⟩ := ihy i fl rest st.flush
    simp only [pr]
    split
    · exact ⟨i1, fl1, rest1, st1, .flush :: ops1, by rw [hst1]; rfl, heq1⟩
    · split
      · exact ⟨i1, fl1, rest1, st1, .flush :: ops1, by rw [hst1]; rfl, heq1⟩
      · exact ⟨i2, fl2, rest2, st2, .flush :: ops2, by rw [hst2]; rfl, heq2⟩

/-! ### Look-ahead: monotonicity -/

/-- A scan result with more width left is at least as good. -/
def Scan.le : Scan → Scan → Prop
  | .stop false, _ => True
  | .stop true, .stop b => b = true
  | .cont r, .cont r' => r ≤ r'
  | _, _ => False

mutual
theorem scan_mono (wg wg' : Bool) (hw : wg' = true → wg = true) : ∀ (d : Doc) (fl : Bool) (r r' : Nat), r ≤ r' →
    (scan wg d fl r).le (scan wg' d fl r')
  | .newline, fl, r, r', h => by simp [scan, Scan.le]
  | .newlineWithNoIndent, fl, r, r', h => by simp [scan, Scan.le]
  | .forceBreak, fl, r, r', h => by
      cases wg <;> cases wg' <;> simp_all [scan, Scan.le]
  | .softline, fl, r, r', h => by
      cases fl <;> simp [scan, Scan.le]
      by_cases h1 : 1 ≤ r
      · have : 1 ≤ r' := by omega
        simp [h1, this, Scan.le]; omega
      · simp [h1, Scan.le]
  | .maybeline, fl, r, r', h => by
      cases fl <;> simp [scan, Scan.le, h]
  | .text s n, fl, r, r', h => by
      simp only [scan]
      by_cases h1 : n ≤ r
      · have : n ≤ r' := by omega
        simp [h1, this, Scan.le]; omega
      · simp [h1, Scan.le]
  | .flat d, fl, r, r', h => by simpa only [scan] using scan_mono wg wg' hw d true r r' h
  | .indent _ d, fl, r, r', h => by simpa only [scan] using scan_mono wg wg' hw d fl r r' h
  | .dedent _ d, fl, r, r', h => by simpa only [scan] using scan_mono wg wg' hw d fl r r' h
  | .concat ds, fl, r, r', h => by simpa only [scan] using scans_mono wg wg' hw ds fl r r' h
  | .choice x y, fl, r, r', h => by
      cases fl
      · simpa [scan] using scan_mono wg wg' hw y false r r' h
      · simpa [scan] using scan_mono wg wg' hw x true r r' h
theorem scans_mono (wg wg' : Bool) (hw : wg' = true → wg = true) : ∀ (ds : List Doc) (fl : Bool) (r r' : Nat), r ≤ r' →
    (scans wg ds fl r).le (scans wg' ds fl r')
  | [], fl, r, r', h => by simpa [scans, Scan.le] using h
  | d :: ds, fl, r, r', h => by
      have h1 := scan_mono wg wg' hw d fl r r' h
      simp only [scans]
      cases e1 : scan wg d fl r with
      | stop b =>
        cases b
        · simp [Scan.le]
        · cases e2 : scan wg' d fl r' with
          | stop b => simpa [e1, e2, Scan.le] using h1
          | cont r2 => simp [e1, e2, Scan.le] at h1
      | cont r1 =>
        cases e2 : scan wg' d fl r' with
        | stop b => simp [e1, e2, Scan.le] at h1
        | cont r2 =>
          rw [e1, e2] at h1
          exact scans_mono wg wg' hw ds fl r1 r2 h1
end

theorem scanChunks_mono (wg wg' : Bool) (hw : wg' = true → wg = true) (cs : List Chunk) (r r' : Nat) (h : r ≤ r') :
    (scanChunks wg cs r).le (scanChunks wg' cs r') := by
  induction cs generalizing r r' with
  | nil => simpa [scanChunks, Scan.le] using h
  | cons c cs ih =>
      have h1 := scan_mono wg wg' hw c.doc c.flat r r' h
      simp only [scanChunks]
      cases e1 : scan wg c.doc c.flat r with
      | stop b =>
        cases b
        · simp [Scan.le]
        · cases e2 : scan wg' c.doc c.flat r' with
          | stop b => simpa [e1, e2, Scan.le] using h1
          | cont r2 => simp [e1, e2, Scan.le] at h1
      | cont r1 =>
        cases e2 : scan wg' c.doc c.flat r' with
        | stop b => simp [e1, e2, Scan.le] at h1
        | cont r2 =>
          rw [e1, e2] at h1
          exact ih r1 r2 h1

theorem Scan.le_answer {a b : Scan} (h : a.le b) (ha : a.answer = true) : b.answer = true := by
  cases a with
  | stop x => cases x
              · simp [Scan.answer] at ha
              · cases b <;> simp_all [Scan.le, Scan.answer]
  | cont r => cases b <;> simp_all [Scan.le, Scan.answer]

/-- If `fits` says yes for chunk `c`, then the scan of the whole stack says yes too. -/
theorem fitsS_answer {rem : Nat} {c : Chunk} {rest : List Chunk} (h : fitsS rem c rest = true) :
    (scanChunks false (c :: rest) rem).answer = true := by
  have h1 := scan_mono true false (by simp) c.doc c.flat rem rem (Nat.le_refl _)
  simp only [fitsS] at h
  simp only [scanChunks]
  cases e1 : scan true c.doc c.flat rem with
  | stop b =>
    simp only [e1] at h
    subst h
    cases e2 : scan false c.doc c.flat rem with
    | stop b => simp [e1, e2, Scan.le] at h1; simp [h1, Scan.answer]
    | cont r => simp [e1, e2, Scan.le] at h1
  | cont r =>
    simp only [e1] at h
    cases e2 : scan false c.doc c.flat rem with
    | stop b => simp [e1, e2, Scan.le] at h1
    | cont r2 =>
      rw [e1, e2] at h1
      exact Scan.le_answer (scanChunks_mono false false id rest r r2 h1) h

/-! ### Soundness of look-ahead -/

mutual
/-- All text leaves of a document satisfy `P`. -/
def Doc.AllText (P : Str → Nat → Prop) : Doc → Prop
  | .text s n => P s n
  | .flat d => d.AllText P
  | .indent _ d => d.AllText P
  | .dedent _ d => d.AllText P
  | .concat ds => Doc.AllTexts P ds
  | .choice x y => x.AllText P ∧ y.AllText P
  | _ => True
def Doc.AllTexts (P : Str → Nat → Prop) : List Doc → Prop
  | [] => True
  | d :: ds => d.AllText P ∧ Doc.AllTexts P ds
end

theorem Doc.allTexts_iff {P : Str → Nat → Prop} {ds : List Doc} : Doc.AllTexts P ds ↔ ∀ d ∈ ds, d.AllText P := by
  induction ds with
  | nil => simp [Doc.AllTexts]
  | cons d ds ih => simp [Doc.AllTexts, ih]

/-- The recorded width of every text leaf is its byte length (true of everything made by `txt`). -/
def Doc.WidthOk (d : Doc) : Prop := d.AllText (fun s n => n = byteLen s)

mutual
theorem Doc.AllText.of_at {P : Str → Nat → Prop} {s : Str} {n j : Nat} : ∀ {d : Doc} {i : Nat}, d.AllText P →
    d.At i (.text s n) j → P s n
  | .text s' n', i, h, ha => by simp [Doc.At] at ha; obtain ⟨⟨rfl, rfl⟩, _⟩ := ha; exact h
  | .newline, i, h, ha | .newlineWithNoIndent, i, h, ha | .softline, i, h, ha | .maybeline, i, h, ha
  | .forceBreak, i, h, ha => by simp [Doc.At] at ha
  | .flat d, i, h, ha => Doc.AllText.of_at (d := d) (i := i) h (by simpa only [Doc.At] using ha)
  | .indent m d, i, h, ha => Doc.AllText.of_at (d := d) (i := i + m) h (by simpa only [Doc.At] using ha)
  | .dedent m d, i, h, ha => Doc.AllText.of_at (d := d) (i := i - m) h (by simpa only [Doc.At] using ha)
  | .concat ds, i, h, ha => Doc.AllText.of_ats (ds := ds) (i := i) h (by simpa only [Doc.At] using ha)
  | .choice x y, i, h, ha => by
      simp only [Doc.At] at ha
      rcases ha with ha | ha
      · exact Doc.AllText.of_at (d := x) h.1 ha
      · exact Doc.AllText.of_at (d := y) h.2 ha
theorem Doc.AllText.of_ats {P : Str → Nat → Prop} {s : Str} {n j : Nat} : ∀ {ds : List Doc} {i : Nat}, Doc.AllTexts P ds →
    Doc.Ats ds i (.text s n) j → P s n
  | [], i, h, ha => by simp [Doc.Ats] at ha
  | d :: ds, i, h, ha => by
      rcases ha with ha | ha
      · exact Doc.AllText.of_at (d := d) h.1 ha
      · exact Doc.AllText.of_ats (ds := ds) h.2 ha
end

theorem at_map {ds : List Doc} {i : Nat} {fl : Bool} {d : Doc}
    (h : d ∈ ds) : (⟨d, i, fl⟩ : Chunk) ∈ ds.map (fun d => { doc := d, indent := i, flat := fl }) := by
  simp; exact h

theorem Doc.ats_of_mem {ds : List Doc} {d : Doc} (h : d ∈ ds) {i : Nat} {l : Doc} {j : Nat} (ha : d.At i l j) :
    Doc.Ats ds i l j := by
  induction ds with
  | nil => simp at h
  | cons e ds ih =>
    rcases List.mem_cons.1 h with rfl | h
    · exact .inl ha
    · exact .inr (ih h)

theorem Doc.ats_iff {ds : List Doc} {i : Nat} {l : Doc} {j : Nat} : Doc.Ats ds i l j ↔ ∃ d ∈ ds, d.At i l j := by
  constructor
  · intro h
    induction ds with
    | nil => simp [Doc.Ats] at h
    | cons d ds ih =>
      rcases h with h | h
      · exact ⟨d, by simp, h⟩
      · obtain ⟨e, he, h⟩ := ih h
        exact ⟨e, by simp [he], h⟩
  · rintro ⟨d, hd, h⟩; exact Doc.ats_of_mem hd h

/-- Shape of the continuation of the current line: some text `s`, some trailing spaces, then end of text or newline. -/
def LineTail (out0 out : Str) (bound : Nat) : Prop :=
  ∃ s k tail, out = out0 ++ s ++ spaces k ++ tail ∧ byteLen s ≤ bound ∧ (tail = [] ∨ ∃ t, tail = '\n' :: t)

theorem LineOver.lineTail {out0 : Str} {st : PSt} (h : LineOver out0 st) (bound : Nat) :
    LineTail out0 st.flush.out bound := by
  obtain ⟨k, t, e⟩ := h.flush
  exact ⟨[], k, '\n' :: t, by simp [e], by simp, .inr ⟨t, rfl⟩⟩

theorem LineTail.cons {out0 u out : Str} {b b' : Nat} (h : LineTail (out0 ++ u) out b') (hb : byteLen u + b' ≤ b) :
    LineTail out0 out b := by
  obtain ⟨s, k, tail, e, hs, ht⟩ := h
  exact ⟨u ++ s, k, tail, by simp [e], by simp; omega, ht⟩

theorem Scan.answer_match (x : Scan) (f : Nat → Scan) :
    (match x with | .stop b => .stop b | .cont r => f r : Scan).answer =
      match x with | .stop b => b | .cont r => (f r).answer := by
  cases x <;> rfl

/-- Main simulation: if the scan of the remaining stack says "fits in `rem`" and nothing is pending, then what is
printed from here to the end of the line (minus trailing spaces) is at most the room left. -/
theorem line_bounded (w : Nat) : ∀ (n : Nat) (cs : List Chunk) (st : PSt) (rem : Nat), chunksCost cs ≤ n →
    (∀ c ∈ cs, c.doc.WidthOk) → st.pend = none → rem ≤ w - st.col →
    (scanChunks false cs rem).answer = true →
    LineTail st.out (prChunks w cs st).flush.out (w - st.col) := by
  intro n
  induction n with
  | zero =>
    intro cs st rem hn _ hp _ _
    match cs with
    | [] => exact ⟨[], 0, [], by simp [prChunks, PSt.flush_of_none hp, spaces], by simp, .inl rfl⟩
    | c :: cs => have := Doc.cost_pos c.doc; simp only [chunksCost] at hn; omega
  | succ n ih =>
    intro cs st rem hn hw hp hr hs
    match cs with
    | [] => exact ⟨[], 0, [], by simp [prChunks, PSt.flush_of_none hp, spaces], by simp, .inl rfl⟩
    | c :: rest =>
      obtain ⟨d, i, fl⟩ := c
      have hd := Doc.cost_pos d
      have hwd : d.WidthOk := hw ⟨d, i, fl⟩ (by simp)
      have hwr : ∀ c ∈ rest, c.doc.WidthOk := fun c hc => hw c (by simp [hc])
      have hover : ∀ j, LineTail st.out (prChunks w rest { st with pend := some j }).flush.out (w - st.col) := by
        intro j
        refine LineOver.lineTail (LineOver.prChunks ?_ w rest) _
        exact .inl ⟨rfl, 0, by simp [spaces]⟩
      have hcons : ∀ (c' : Chunk), c'.doc.WidthOk → ∀ c ∈ c' :: rest, c.doc.WidthOk := by
        intro c' h c hc
        rcases List.mem_cons.1 hc with rfl | hc
        · exact h
        · exact hwr c hc
      cases d <;> simp only [chunksCost, Doc.cost] at hn <;> simp only [prChunks, pr] <;>
        simp only [scanChunks, scan] at hs
      case newline => exact hover i
      case newlineWithNoIndent =>
        refine LineOver.lineTail (LineOver.prChunks ?_ w rest) _
        exact .inr ⟨0, [], by simp [PSt.bareNewline, spaces]⟩
      case forceBreak =>
        exact ih rest st rem (by omega) hwr hp hr (by simpa using hs)
      case softline =>
        cases fl
        · simpa using hover i
        · simp only [if_true] at hs ⊢
          by_cases h1 : 1 ≤ rem
          · simp only [h1, if_true] at hs
            refine LineTail.cons (u := [' ']) (ih rest st.putSpace (rem - 1) (by omega) hwr hp ?_ hs) ?_
            · simp only [PSt.putSpace]; omega
            · have : byteLen [' '] = 1 := by decide
              simp only [PSt.putSpace]; omega
          · simp [h1, Scan.answer] at hs
      case maybeline =>
        cases fl
        · simpa using hover i
        · simp only [if_true] at hs ⊢
          exact ih rest st rem (by omega) hwr hp hr hs
      case text s width =>
        have hwid : width = byteLen s := hwd
        by_cases h1 : width ≤ rem
        · simp only [h1, if_true] at hs
          rw [PSt.flush_of_none hp]
          simp only [PSt.putText]
          split
          · exact ih rest st (rem - width) (by omega) hwr hp (by omega) hs
          · refine LineTail.cons (u := s) (ih rest _ (rem - width) (by omega) hwr hp ?_ hs) ?_
            · simp only; omega
            · simp only; omega
        · simp [h1, Scan.answer] at hs
      case flat d =>
        have := ih (⟨d, i, true⟩ :: rest) st rem (by simp only [chunksCost]; omega)
          (hcons _ hwd) hp hr (by simpa only [scanChunks] using hs)
        simpa only [prChunks] using this
      case indent m d =>
        have := ih (⟨d, i + m, fl⟩ :: rest) st rem (by simp only [chunksCost]; omega)
          (hcons _ hwd) hp hr (by simpa only [scanChunks] using hs)
        simpa only [prChunks] using this
      case dedent m d =>
        have := ih (⟨d, i - m, fl⟩ :: rest) st rem (by simp only [chunksCost]; omega)
          (hcons _ hwd) hp hr (by simpa only [scanChunks] using hs)
        simpa only [prChunks] using this
      case concat ds =>
        have := ih (ds.map (fun d => { doc := d, indent := i, flat := fl }) ++ rest) st rem
          (by simp only [chunksCost_append, chunksCost_map]; omega)
          (by
            intro c hc
            rcases List.mem_append.1 hc with hc | hc
            · simp only [List.mem_map] at hc
              obtain ⟨d, hd, rfl⟩ := hc
              exact Doc.allTexts_iff.1 hwd d hd
            · exact hwr c hc) hp hr (by rw [scanChunks_append, scanChunks_map]; exact hs)
        rwa [prChunks_map] at this
      case choice x y =>
        rw [PSt.flush_of_none hp]
        have hx := ih (⟨x, i, fl⟩ :: rest) st
        have hy := ih (⟨y, i, fl⟩ :: rest) st
        have hcx : chunksCost (⟨x, i, fl⟩ :: rest) ≤ n := by simp only [chunksCost]; omega
        have hcy : chunksCost (⟨y, i, fl⟩ :: rest) ≤ n := by simp only [chunksCost]; omega
        cases fl
        · simp only [Bool.false_eq_true, if_false] at hs ⊢
          by_cases hf : fitsS (w - st.col) { doc := x, indent := i, flat := false } rest = true
          · rw [if_pos hf]
            exact hx (w - st.col) hcx (hcons _ hwd.1) hp (Nat.le_refl _) (fitsS_answer hf)
          · rw [if_neg hf]
            exact hy rem hcy (hcons _ hwd.2) hp hr (by simpa only [scanChunks] using hs)
        · simp only [if_true] at hs ⊢
          exact hx rem hcx (hcons _ hwd.1) hp hr (by simpa only [scanChunks] using hs)

end Afmt
