import Verif.PrinterLemmas2

/-!
# Properties of the layout engine (C03 - C09) and of the list combinators (C12, C13)
-/

namespace Afmt

/-! ## Vocabulary -/

/-- Started with stack `cs` in state `st`, the loop of `PrettyPrinter::print` ends in state `fin`. -/
def Prints (w : Nat) (cs : List Chunk) (st fin : PSt) : Prop := ∃ fuel, printLoop w fuel cs st = some fin

theorem printLoop_some {w fuel : Nat} : ∀ {cs : List Chunk} {st fin : PSt}, printLoop w fuel cs st = some fin →
    fin = prChunks w cs st := by
  intro cs st fin h
  have hstep : ∀ (fuel : Nat) (cs : List Chunk) (st : PSt) (n : Nat), printLoop w fuel cs st = some fin →
      printLoop w (fuel + n) cs st = some fin := by
    intro fuel
    induction fuel with
    | zero =>
      intro cs st n h
      match cs with
      | [] => cases n <;> simpa [printLoop] using h
      | c :: cs => simp [printLoop] at h
    | succ fuel ih =>
      intro cs st n h
      match cs with
      | [] => simpa [printLoop] using h
      | c :: cs =>
        rw [Nat.succ_add, printLoop]
        rw [printLoop] at h
        cases hs : printStep w c cs st with
        | none => simp [hs] at h
        | some p => simp only [hs] at h ⊢; exact ih _ _ n h
  have h1 := hstep fuel cs st (chunksCost cs) h
  rw [printLoop_eq w _ cs st (by omega)] at h1
  simpa using h1.symm

theorem prints_iff {w : Nat} {cs : List Chunk} {st fin : PSt} : Prints w cs st fin ↔ fin = prChunks w cs st := by
  constructor
  · rintro ⟨fuel, h⟩; exact printLoop_some h
  · rintro rfl; exact ⟨_, printLoop_eq w _ cs st (Nat.le_refl _)⟩

/-! ## C03 -/

/-- C03 (termination): for every width, stack and state the printing loop ends, in exactly one state; more iterations
allowed do not change the result. -/
theorem C03_terminates (w : Nat) (cs : List Chunk) (st : PSt) :
    ∃ fin, Prints w cs st fin ∧ (∀ fin', Prints w cs st fin' → fin' = fin) ∧
      ∃ bound, ∀ fuel, bound ≤ fuel → printLoop w fuel cs st = some fin :=
  ⟨prChunks w cs st, prints_iff.2 rfl, fun _ h => prints_iff.1 h, chunksCost cs, fun _ h => printLoop_eq w _ cs st h⟩

/-- C03 (nothing lost, nothing added): `pretty_print` returns, and its visible characters are exactly those of the text
leaves in order. -/
theorem C03_prints_all_text (w : Nat) (d : Doc) (h : d.GroupOnly) :
    ∃ out, prettyPrint w d = some out ∧ ink out = ink d.leaves.flatten := by
  refine ⟨layout w d, prettyPrint_eq w d, ?_⟩
  rw [layout, PSt.flush_ink, pr_ink w d 0 false [] PSt.init h]
  simp [PSt.init]

/-- A non-trivial document used in the examples: a call with two arguments in a group. -/
def exampleDoc : Doc :=
  group (.concat [txt "foo(".toList, indentDoc 2 (.concat [.maybeline, txt "alpha,".toList, .softline, txt "beta".toList]),
    .maybeline, txt ")".toList])

example : exampleDoc.GroupOnly := by
  simp [exampleDoc, group, Doc.GroupOnly, Doc.GroupOnlys, txt, indentDoc]
example : prettyPrint 80 exampleDoc = some "foo(alpha, beta)".toList := by decide
example : prettyPrint 10 exampleDoc = some "foo(\n  alpha,\n  beta\n)".toList := by decide

/-! ## C01/C02 at document level -/

/-- The width changes only spaces and newlines. -/
theorem C01_width_only_whitespace_doc (w₁ w₂ : Nat) (d : Doc) (h : d.GroupOnly) :
    ∃ o₁ o₂, prettyPrint w₁ d = some o₁ ∧ prettyPrint w₂ d = some o₂ ∧ ink o₁ = ink o₂ := by
  obtain ⟨o₁, e₁, i₁⟩ := C03_prints_all_text w₁ d h
  obtain ⟨o₂, e₂, i₂⟩ := C03_prints_all_text w₂ d h
  exact ⟨o₁, o₂, e₁, e₂, i₁.trans i₂.symm⟩

/-! ## C04 -/

/-- C04: take any printer configuration with a choice (group) on top, not inside a flattened group, for which the
printer's test says the one-line alternative fits.  Then everything printed from there to the end of that line, minus
trailing spaces, is at most the room that was left on the line. -/
theorem C04_kept_line_fits (w : Nat) (x y : Doc) (i : Nat) (rest : List Chunk) (st fin : PSt)
    (hx : x.WidthOk) (hrest : ∀ c ∈ rest, c.doc.WidthOk)
    (hfits : fits w st.flush.col { doc := x, indent := i, flat := false } rest = some true)
    (hp : Prints w ({ doc := .choice x y, indent := i, flat := false } :: rest) st fin) :
    ∃ more s k, fin.flush.out = st.flush.out ++ more ∧ firstLine more = s ++ spaces k ∧
      byteLen s ≤ w - st.flush.col := by
  rw [prints_iff] at hp
  rw [fits_eq] at hfits
  have hf : fitsS (w - st.flush.col) { doc := x, indent := i, flat := false } rest = true := by simpa using hfits
  have hfin : fin = prChunks w ({ doc := x, indent := i, flat := false } :: rest) st.flush := by
    rw [hp]
    simp only [prChunks, pr, Bool.false_eq_true, if_false, hf, if_true]
  have := line_bounded w _ ({ doc := x, indent := i, flat := false } :: rest) st.flush (w - st.flush.col)
    (Nat.le_refl _) (by
      intro c hc
      rcases List.mem_cons.1 hc with rfl | hc
      · exact hx
      · exact hrest c hc) st.flush_pend (Nat.le_refl _) (fitsS_answer hf)
  rw [← hfin] at this
  obtain ⟨s, k, tail, e, hs, ht⟩ := this
  have hk := nl_not_mem_spaces k
  have htail : firstLine tail = [] := by
    rcases ht with rfl | ⟨t, rfl⟩ <;> simp [firstLine]
  by_cases hn : '\n' ∈ s
  · refine ⟨s ++ spaces k ++ tail, firstLine s, 0, by simp [e], ?_, ?_⟩
    · rw [List.append_assoc, firstLine_append_of_nl hn]; simp [spaces]
    · exact Nat.le_trans (byteLen_takeWhile_le _ _) hs
  · refine ⟨s ++ spaces k ++ tail, s, k, by simp [e], ?_, hs⟩
    rw [firstLine_append_of_no_nl (by simp [hn, hk]), htail, List.append_nil]

example : (Doc.flat (txt "ab".toList)).WidthOk ∧ fits 10 0 { doc := .flat (txt "ab".toList), indent := 0, flat := false }
    [{ doc := txt "cd".toList, indent := 0, flat := false }] = some true :=
  ⟨by simp [Doc.WidthOk, Doc.AllText, txt], by decide⟩

/-! ## C05 -/

/-- C05: a group whose one-line form `t` exists (no hard or forced break inside) and which, together with what follows
up to the next possible line break, fits in the room left, is printed as exactly `t` on the current line. -/
theorem C05_fitting_group_one_line (w : Nat) (d : Doc) (t : Str) (i : Nat) (rest : List Chunk) (st fin : PSt)
    (hd : d.AllText (fun s n => n = byteLen s ∧ s ≠ [' '])) (ht : d.flatText = some t)
    (hroom : byteLen t + (chunksUpto rest).1 ≤ w - st.flush.col) :
    Prints w ({ doc := group d, indent := i, flat := false } :: rest) st fin ↔
      Prints w rest { st.flush with out := st.flush.out ++ t, col := st.flush.col + byteLen t } fin := by
  have hw : d.WidthOk := Doc.AllText.mono (fun s n h => h.1) d hd
  have hf : fitsS (w - st.flush.col) { doc := .flat d, indent := i, flat := false } rest = true := by
    simp only [fitsS, scan, scan_flatText true d t _ hw ht]
    have : byteLen t ≤ w - st.flush.col := by omega
    simp only [this, if_true, chunksUpto_answer]
    simp; omega
  simp only [prints_iff, prChunks, group, pr, Bool.false_eq_true, if_false, hf, if_true]
  rw [pr_flatText w d t i rest st.flush hd ht st.flush_pend]
  rfl


/-- Body of `exampleDoc` with its one-line form; followed by `;` it fits in 17 columns and not in 16. -/
def exampleBody : Doc :=
  .concat [txt "foo(".toList, indentDoc 2 (.concat [.maybeline, txt "alpha,".toList, .softline, txt "beta".toList]),
    .maybeline, txt ")".toList]
example : exampleBody.flatText = some "foo(alpha, beta)".toList := by decide
example : exampleBody.AllText (fun s n => n = byteLen s ∧ s ≠ [' ']) := by
  simp [exampleBody, txt, indentDoc, Doc.AllText, Doc.AllTexts]
example : byteLen "foo(alpha, beta)".toList + (chunksUpto [{ doc := txt ";".toList, indent := 0, flat := false }]).1 ≤ 17 := by
  decide
example : prettyPrint 17 (.concat [group exampleBody, txt ";".toList]) = some "foo(alpha, beta);".toList := by decide
example : prettyPrint 16 (.concat [group exampleBody, txt ";".toList]) = some "foo(\n  alpha,\n  beta\n);".toList := by decide

/-! ## C06 -/

/-- C06 (own group): if the first mandatory break of a group's content is a forced break, the group is printed in its
multi-line form, whatever the width and whatever follows. -/
theorem C06_forced_break_breaks_group (w : Nat) (d : Doc) (i : Nat) (rest : List Chunk) (st fin : PSt)
    (h : d.firstBreak = .forced) :
    Prints w ({ doc := group d, indent := i, flat := false } :: rest) st fin ↔
      Prints w ({ doc := d, indent := i, flat := false } :: rest) st.flush fin := by
  have h1 := scan_firstBreak d (w - st.flush.col)
  rw [h] at h1
  have hf : fitsS (w - st.flush.col) { doc := .flat d, indent := i, flat := false } rest = false := by
    simp only [fitsS, scan]
    rw [show scan true d true (w - st.flush.col) = .stop false from h1]
  simp only [prints_iff, prChunks, group, pr, Bool.false_eq_true, if_false, hf]

/-- C06 (only its own group): forced breaks in what follows a group never influence the decision. -/
theorem C06_forced_break_after_group_ignored (w col : Nat) (c : Chunk) (rest : List Chunk) :
    fits w col c (rest.map Chunk.eraseForce) = fits w col c rest := by
  simp only [fits_eq, fitsS, chunksUpto_answer, chunksUpto_eraseForce]

example : (Doc.concat [txt "a".toList, .forceBreak, .softline, .newline]).firstBreak = .forced := rfl
example : prettyPrint 80 (group (.concat [txt "a".toList, .softline, .forceBreak, txt "b".toList])) = some "a\nb".toList := by
  decide
example : prettyPrint 80 (.concat [group (.concat [txt "a".toList, .softline, txt "b".toList]), .forceBreak]) =
    some "a b".toList := by decide

/-! ## C07 -/

/-- C07: in every configuration reached while printing a document whose leaves contain no newline and carry their byte
width, the column equals the byte width of the current last line. -/
theorem C07_column_exact (w : Nat) (d : Doc) (cs : List Chunk) (st : PSt)
    (hd : d.AllText (fun s n => '\n' ∉ s ∧ n = byteLen s)) (h : Reachable w d cs st) :
    st.col = byteLen (lastLine st.out) := by
  obtain ⟨⟨ops, e, ho⟩, _⟩ := h.ops
  rw [e]
  refine ColOk.init.runOps fun op hop s n hs => ?_
  have := ho op hop
  subst hs
  obtain ⟨j, hj⟩ := this
  exact Doc.AllText.of_at hd hj

/-- Output reached so far is a prefix of the final output. -/
theorem Reachable.prefix {w : Nat} {d : Doc} {cs : List Chunk} {st : PSt} (h : Reachable w d cs st) :
    (prChunks w cs st) = pr w d 0 false [] PSt.init ∧ ∃ t, layout w d = st.out ++ t := by
  have h1 : prChunks w cs st = pr w d 0 false [] PSt.init := by
    induction h with
    | start => simp [prChunks]
    | @step c rest st cs st' _ hs ih =>
      rw [← ih]
      have hp : Prints w (c :: rest) st (prChunks w cs st') :=
        ⟨chunksCost cs + 1, by rw [printLoop, hs]; exact printLoop_eq w _ cs st' (Nat.le_refl _)⟩
      exact prints_iff.1 hp
  refine ⟨h1, ?_⟩
  obtain ⟨ops, e, _⟩ := prChunks_ops w cs st
  obtain ⟨t, ht⟩ := runOps_out (ops ++ [.flush]) st
  refine ⟨t, ?_⟩
  rw [← ht, runOps_append, ← e, h1]; rfl

/-- C07 (no overflow): the column never exceeds the byte length of the complete output, so `u32` arithmetic on it cannot
overflow while the output is shorter than 2^32 bytes. -/
theorem C07_column_bounded (w : Nat) (d : Doc) (cs : List Chunk) (st : PSt) (out : Str)
    (hd : d.AllText (fun s n => '\n' ∉ s ∧ n = byteLen s)) (h : Reachable w d cs st)
    (hout : prettyPrint w d = some out) : st.col ≤ byteLen out := by
  rw [C07_column_exact w d cs st hd h]
  rw [prettyPrint_eq] at hout
  obtain ⟨_, t, ht⟩ := h.prefix
  have : out = layout w d := by simpa using hout.symm
  rw [this, ht, byteLen_append]
  have := byteLen_lastLine_le st.out
  omega

example : exampleDoc.AllText (fun s n => '\n' ∉ s ∧ n = byteLen s) := by
  simp [exampleDoc, group, txt, indentDoc, Doc.AllText, Doc.AllTexts]

/-! ## C08 -/

/-- C08: the output is a sequence of text leaves, spaces for soft breaks, bare newlines, and newlines followed by exactly
the indentation in force at the break that caused them. -/
theorem C08_indentation_exact (w : Nat) (d : Doc) (out : Str) (hout : prettyPrint w d = some out) :
    ∃ ps : List Piece, out = renderPieces ps ∧ ∀ p ∈ ps, p.FromAt (d.At 0) := by
  rw [prettyPrint_eq] at hout
  obtain ⟨ops, e, ho⟩ := pr_ops w d 0 false [] PSt.init
  have h0 : PieceOk (d.At 0) PSt.init := ⟨⟨[], by simp [renderPieces, PSt.init], by simp⟩, by simp [PSt.init]⟩
  have h1 := (h0.runOps ho).flush
  rw [← e] at h1
  have : out = layout w d := by simpa using hout.symm
  rw [this]
  exact h1.1

/-- C08 (multiple of the indent size): with one indent size `k` used everywhere, every indented line starts with a
multiple of `k` spaces. -/
theorem C08_indentation_multiple (w k : Nat) (d : Doc) (out : Str) (hd : d.Uniform k) (hout : prettyPrint w d = some out) :
    ∃ ps : List Piece, out = renderPieces ps ∧ ∀ i, Piece.line i ∈ ps → k ∣ i := by
  obtain ⟨ps, e, h⟩ := C08_indentation_exact w d out hout
  refine ⟨ps, e, fun i hi => ?_⟩
  have := h _ hi
  rcases this with h | h | h
  · exact hd.dvd (Nat.dvd_zero k) h
  · exact hd.dvd (Nat.dvd_zero k) h
  · exact hd.dvd (Nat.dvd_zero k) h

example : exampleDoc.Uniform 2 := by
  simp [exampleDoc, group, txt, indentDoc, Doc.Uniform, Doc.Uniforms]

/-! ## C09 -/

/-- C09: wherever a line comment (`txt value` followed by a newline) occurs in the printed document, in the output its
text is followed by spaces only and then a newline. -/
theorem C09_line_comment_ends_line (w : Nat) (d : Doc) (value : Str) (out : Str) (hv : value ≠ [' '])
    (h : Doc.Occurs (.concat [txt value, nl]) d) (hout : prettyPrint w d = some out) :
    ∃ before k after, out = before ++ value ++ spaces k ++ '\n' :: after := by
  obtain ⟨i, fl, rest, st, ops, _, heq⟩ := h.visit w 0 false [] PSt.init
  rw [prettyPrint_eq] at hout
  have ho : out = layout w d := by simpa using hout.symm
  simp only [prChunks] at heq
  have hstep : pr w (.concat [txt value, nl]) i fl rest st =
      { st.flush with out := st.flush.out ++ value, col := st.flush.col + byteLen value, pend := some i } := by
    simp [pr, prs, txt, nl, PSt.putText, hv]
  have hl : LineOver (st.flush.out ++ value) (pr w (.concat [txt value, nl]) i fl rest st) := by
    rw [hstep]; exact .inl ⟨rfl, 0, by simp [spaces]⟩
  obtain ⟨k, t, e⟩ := (hl.prChunks w rest).flush
  exact ⟨st.flush.out, k, t, by rw [ho, layout, heq, e]⟩

example : Doc.Occurs (.concat [txt "// hi".toList, nl])
    (group (.concat [txt "a".toList, .concat [txt "// hi".toList, nl], txt "b".toList])) :=
  .choice (.flat (.concat (by simp) .refl)) (.concat (by simp) .refl)
example : prettyPrint 80 (group (.concat [txt "a ".toList, .concat [txt "// hi".toList, nl], txt "b".toList])) =
    some "a // hi\nb".toList := by decide

/-! ## C12 -/

/-- Text of a document, whitespace chosen by the printer left out. -/
def Doc.str (d : Doc) : Str := d.leaves.flatten

/-- C12: joining prints the elements in order, separated by the separator's text, `n-1` times. -/
theorem C12_intersperse (elems : List Doc) (sep : Insertable) :
    (intersperse elems sep).str =
      ((elems.map Doc.str).intersperse ((sep.docs.map Doc.str).flatten)).flatten := by
  have hl : ∀ ds : List Doc, (Doc.leavess ds).flatten = (ds.map Doc.str).flatten := by
    intro ds
    induction ds with
    | nil => rfl
    | cons d ds ih => simp [Doc.leavess, ih, Doc.str]
  unfold intersperse
  split
  · next h => subst h; simp [nilDoc, txt, Doc.str, Doc.leaves]
  · simp only [Doc.str, Doc.leaves]
    rw [hl]
    rename_i hne
    clear hne
    induction elems with
    | nil => simp [intersperseParts]
    | cons e es ih =>
      cases es with
      | nil => simp [intersperseParts, Doc.str]
      | cons f fs =>
        simp only [intersperseParts, List.map_cons, List.map_append, List.flatten_cons, List.flatten_append, ih,
          List.intersperse_cons_cons]

/-- C12: a non-empty surrounded list prints opening, list, closing once each. -/
theorem C12_surround_nonempty (k : Nat) (elems : List Doc) (sep opn cls : Insertable) (h : elems ≠ []) :
    ∃ d, surround k elems sep opn cls = some d ∧
      d.str = (opn.docs.map Doc.str).flatten ++ (intersperse elems sep).str ++ (cls.docs.map Doc.str).flatten := by
  refine ⟨_, by rw [surround, if_neg h], ?_⟩
  obtain ⟨p, o, s⟩ := opn
  obtain ⟨p', c, s'⟩ := cls
  simp only [Doc.str, Doc.leaves, Doc.leavess_append, List.flatten_append, Insertable.docs]
  cases p <;> cases o <;> cases s <;> cases p' <;> cases c <;> cases s' <;>
    simp [optDoc, optTxt, Doc.leavess, Doc.leaves, indentDoc, txt, Doc.str]

/-- C12: an empty surrounded list prints the two delimiters next to each other. -/
theorem C12_surround_empty (w k : Nat) (sep : Insertable) (opn cls : Insertable) (o c : Str) (ho : opn.str = some o)
    (hc : cls.str = some c) (h1 : c ≠ [' ']) :
    ∃ d, surround k [] sep opn cls = some d ∧ prettyPrint w d = some (o ++ c) := by
  refine ⟨.concat [txt o, txt c], by simp [surround, ho, hc], ?_⟩
  rw [prettyPrint_eq]
  by_cases h2 : o = [' '] <;>
    simp [layout, pr, prs, txt, PSt.flush, PSt.init, PSt.putText, endsWithSpace, h1, h2]

/-- C12: the panic of `surround` happens exactly for an empty list with a missing delimiter. -/
theorem C12_surround_panics_iff (k : Nat) (elems : List Doc) (sep opn cls : Insertable) :
    surround k elems sep opn cls = none ↔ elems = [] ∧ (opn.str = none ∨ cls.str = none) := by
  unfold surround
  split
  · next h => cases opn.str <;> cases cls.str <;> simp [h]
  · next h => simp [h]

example : prettyPrint 80 (intersperse [txt "a".toList, txt "b".toList, txt "c".toList] ⟨none, some ",".toList, some .softline⟩) =
    some "a,\nb,\nc".toList := by decide

/-! ## C13 -/

mutual
/-- What a document begins with: `none` if it prints nothing at all, `some true` if the first thing is text or a group
(so that a pending newline is written before anything else), `some false` if it is a line break. -/
def Doc.lead : Doc → Option Bool
  | .text .. => some true
  | .choice .. => some true
  | .forceBreak => none
  | .flat d => d.lead
  | .indent _ d => d.lead
  | .dedent _ d => d.lead
  | .concat ds => Doc.leads ds
  | _ => some false
def Doc.leads : List Doc → Option Bool
  | [] => none
  | d :: ds => match d.lead with
    | none => Doc.leads ds
    | some b => some b
end

/-- The document begins with text or with a group. -/
def Doc.startsSolid (d : Doc) : Bool := d.lead == some true

theorem PSt.flush_flush (st : PSt) : st.flush.flush = st.flush := PSt.flush_of_none st.flush_pend

mutual
theorem pr_silent (w : Nat) : ∀ (d : Doc) (i : Nat) (fl : Bool) (rest : List Chunk) (st : PSt), d.lead = none →
    pr w d i fl rest st = st
  | .text .., i, fl, rest, st, h | .choice .., i, fl, rest, st, h
  | .newline, i, fl, rest, st, h | .newlineWithNoIndent, i, fl, rest, st, h | .softline, i, fl, rest, st, h
  | .maybeline, i, fl, rest, st, h => by simp [Doc.lead] at h
  | .forceBreak, i, fl, rest, st, _ => by simp [pr]
  | .flat d, i, fl, rest, st, h => by
      simpa only [pr] using pr_silent w d i true rest st (by simpa [Doc.lead] using h)
  | .indent _ d, i, fl, rest, st, h => by
      simpa only [pr] using pr_silent w d _ fl rest st (by simpa [Doc.lead] using h)
  | .dedent _ d, i, fl, rest, st, h => by
      simpa only [pr] using pr_silent w d _ fl rest st (by simpa [Doc.lead] using h)
  | .concat ds, i, fl, rest, st, h => by
      simpa only [pr] using prs_silent w ds i fl rest st (by simpa [Doc.lead] using h)
theorem prs_silent (w : Nat) : ∀ (ds : List Doc) (i : Nat) (fl : Bool) (rest : List Chunk) (st : PSt),
    Doc.leads ds = none → prs w ds i fl rest st = st
  | [], i, fl, rest, st, _ => by simp [prs]
  | d :: ds, i, fl, rest, st, h => by
      cases hd : d.lead with
      | none =>
        rw [prs, pr_silent w d i fl _ st hd]
        exact prs_silent w ds i fl rest st (by simpa [Doc.leads, hd] using h)
      | some b => simp [Doc.leads, hd] at h
end

mutual
theorem pr_solid (w : Nat) : ∀ (d : Doc) (i : Nat) (fl : Bool) (rest : List Chunk) (st : PSt), d.lead = some true →
    pr w d i fl rest st = pr w d i fl rest st.flush
  | .text .., i, fl, rest, st, _ => by simp [pr, PSt.flush_flush]
  | .choice .., i, fl, rest, st, _ => by simp [pr, PSt.flush_flush]
  | .newline, i, fl, rest, st, h | .newlineWithNoIndent, i, fl, rest, st, h | .softline, i, fl, rest, st, h
  | .maybeline, i, fl, rest, st, h | .forceBreak, i, fl, rest, st, h => by simp [Doc.lead] at h
  | .flat d, i, fl, rest, st, h => by
      simpa only [pr] using pr_solid w d i true rest st (by simpa [Doc.lead] using h)
  | .indent _ d, i, fl, rest, st, h => by
      simpa only [pr] using pr_solid w d _ fl rest st (by simpa [Doc.lead] using h)
  | .dedent _ d, i, fl, rest, st, h => by
      simpa only [pr] using pr_solid w d _ fl rest st (by simpa [Doc.lead] using h)
  | .concat ds, i, fl, rest, st, h => by
      simpa only [pr] using prs_solid w ds i fl rest st (by simpa [Doc.lead] using h)
theorem prs_solid (w : Nat) : ∀ (ds : List Doc) (i : Nat) (fl : Bool) (rest : List Chunk) (st : PSt),
    Doc.leads ds = some true → prs w ds i fl rest st = prs w ds i fl rest st.flush
  | [], i, fl, rest, st, h => by simp [Doc.leads] at h
  | d :: ds, i, fl, rest, st, h => by
      cases hd : d.lead with
      | none =>
        rw [prs, prs, pr_silent w d i fl _ st hd, pr_silent w d i fl _ st.flush hd]
        exact prs_solid w ds i fl rest st (by simpa [Doc.leads, hd] using h)
      | some b =>
        rw [prs, prs, pr_solid w d i fl _ st (by simpa [Doc.leads, hd] using h)]
end

theorem pr_startsSolid (w : Nat) (d : Doc) (i : Nat) (fl : Bool) (rest : List Chunk) (st : PSt) (h : d.startsSolid = true) :
    pr w d i fl rest st = pr w d i fl rest st.flush := pr_solid w d i fl rest st (by simpa [Doc.startsSolid] using h)

/-- Specification of the text between the braces: every member on a new line at indentation `ind`, preceded by an empty
line exactly if the previous member asks for it. -/
def bodyText (ind : Nat) : List (Bool × Str) → Str
  | [] => []
  | [(_, t)] => '\n' :: spaces ind ++ t
  | (b, t) :: r => '\n' :: spaces ind ++ t ++ (if b then ['\n'] else []) ++ bodyText ind r

theorem prs_bodyMembers (w ind : Nat) (fl : Bool) (rest : List Chunk) : ∀ (ms : List (Bool × Doc)) (st : PSt),
    (∀ m ∈ ms, m.2.startsSolid = true ∧ m.2.GroupOnly) → st.pend = some ind → ms ≠ [] →
    ∃ ts : List Str, ts.map ink = ms.map (fun m => ink m.2.str) ∧
      (prs w (bodyMembersParts ms) ind fl rest st).out = st.out ++ bodyText ind ((ms.map (·.1)).zip ts) := by
  intro ms
  induction ms with
  | nil => intro st _ _ h; exact absurd rfl h
  | cons m ms ih =>
    intro st hm hp _
    obtain ⟨b, m⟩ := m
    have h1 := hm (b, m) (by simp)
    have hfl : st.flush = { out := st.out ++ '\n' :: spaces ind, col := ind, pend := none } := by
      simp [PSt.flush, hp]
    have hpr : ∀ rest', ∃ t, (pr w m ind fl rest' st).out = st.out ++ '\n' :: spaces ind ++ t ∧ ink t = ink m.str := by
      intro rest'
      rw [pr_startsSolid w m ind fl rest' st h1.1]
      obtain ⟨ops, e, _⟩ := pr_ops w m ind fl rest' st.flush
      obtain ⟨t, ht⟩ := runOps_out ops st.flush
      rw [← e] at ht
      have hink := pr_ink w m ind fl rest' st.flush h1.2
      rw [ht, ink_append] at hink
      refine ⟨t, by rw [ht, hfl], ?_⟩
      exact List.append_cancel_left hink
    cases ms with
    | nil =>
      obtain ⟨t, ht, hi⟩ := hpr rest
      refine ⟨[t], by simp [hi], ?_⟩
      simp [bodyMembersParts, prs, ht, bodyText]
    | cons m2 ms =>
      simp only [bodyMembersParts, prs]
      obtain ⟨t, ht, hi⟩ := hpr (List.map (fun d => ({ doc := d, indent := ind, flat := fl } : Chunk))
          ((if b = true then emptyNewLine else nl) :: bodyMembersParts (m2 :: ms)) ++ rest)
      generalize hst1 : pr w m ind fl (List.map (fun d => ({ doc := d, indent := ind, flat := fl } : Chunk))
          ((if b = true then emptyNewLine else nl) :: bodyMembersParts (m2 :: ms)) ++ rest) st = st1 at ht ⊢
      have key : ∀ st2 : PSt, st2.pend = some ind → st2.out = st1.out ++ (if b then ['\n'] else []) →
          ∃ ts : List Str, ts.map ink = ((b, m) :: m2 :: ms).map (fun m => ink m.2.str) ∧
            (prs w (bodyMembersParts (m2 :: ms)) ind fl rest st2).out =
              st.out ++ bodyText ind ((((b, m) :: m2 :: ms).map (·.1)).zip ts) := by
        intro st2 hp2 ho2
        obtain ⟨ts, hts, hout⟩ := ih st2 (fun x hx => hm x (by simp [hx])) hp2 (by simp)
        refine ⟨t :: ts, by simp [hts, hi], ?_⟩
        rw [hout, ho2, ht]
        cases ts with
        | nil => simp at hts
        | cons t2 ts =>
          cases b <;> simp [bodyText]
      cases b
      · exact key _ (by simp [pr, nl]) (by simp [pr, nl])
      · exact key _ (by simp [pr, prs, emptyNewLine]) (by simp [pr, prs, emptyNewLine, PSt.bareNewline])

/-- C13: layout of a non-empty body at indentation `i`: opening text, members each on a new line indented `i + k` (with
an empty line in between exactly where requested), closing text on its own line at indentation `i`. -/
theorem C13_body_layout (w k i : Nat) (fl : Bool) (ms : List (Bool × Doc)) (opn cls : Str) (rest : List Chunk) (st : PSt)
    (hm : ∀ m ∈ ms, m.2.startsSolid = true ∧ m.2.GroupOnly) (hne : ms ≠ []) (ho : opn ≠ [' ']) (hc : cls ≠ [' ']) :
    ∃ (ts : List Str) (st' : PSt), ts.map ink = ms.map (fun m => ink m.2.str) ∧ st'.pend = none ∧
      st'.out = st.flush.out ++ opn ++ bodyText (i + k) ((ms.map (·.1)).zip ts) ++ '\n' :: spaces i ++ cls ∧
      ∀ fin, Prints w ({ doc := surroundBodyMembers k ms opn cls, indent := i, flat := fl } :: rest) st fin ↔
        Prints w rest st' fin := by
  obtain ⟨m, ms', rfl⟩ : ∃ m ms', ms = m :: ms' := by
    cases ms with
    | nil => exact absurd rfl hne
    | cons m ms' => exact ⟨m, ms', rfl⟩
  let rest1 : List Chunk := ⟨nl, i, fl⟩ :: ⟨txt cls, i, fl⟩ :: rest
  let st1 : PSt := { st.flush with out := st.flush.out ++ opn, col := st.flush.col + byteLen opn, pend := some (i + k) }
  obtain ⟨ts, hts, hout⟩ := prs_bodyMembers w (i + k) fl rest1 (m :: ms') st1 hm rfl hne
  let st2 : PSt := prs w (bodyMembersParts (m :: ms')) (i + k) fl rest1 st1
  refine ⟨ts, ⟨st2.out ++ '\n' :: spaces i ++ cls, i + byteLen cls, none⟩, hts, rfl, ?_, ?_⟩
  · show st2.out ++ _ ++ _ = _
    rw [show st2.out = _ from hout]
  · intro fin
    simp only [prints_iff]
    have : prChunks w ({ doc := surroundBodyMembers k (m :: ms') opn cls, indent := i, flat := fl } :: rest) st =
        prChunks w rest ⟨st2.out ++ '\n' :: spaces i ++ cls, i + byteLen cls, none⟩ := by
      simp only [prChunks, surroundBodyMembers, pr, prs, txt, indentDoc, nl, intersperseBodyMembers]
      have e1 : (st.flush.putText opn (byteLen opn)) =
          { st.flush with out := st.flush.out ++ opn, col := st.flush.col + byteLen opn } := by
        simp [PSt.putText, ho]
      rw [e1]
      show prChunks w rest (PSt.putText (PSt.flush { st2 with pend := some i }) cls (byteLen cls)) = _
      simp [PSt.flush, PSt.putText, hc]
    rw [this]

/-- C13: an empty body prints the two delimiters on two lines. -/
theorem C13_empty_body (w k i : Nat) (fl : Bool) (opn cls : Str) (rest : List Chunk) (st : PSt)
    (ho : opn ≠ [' ']) (hc : cls ≠ [' ']) :
    ∃ st' : PSt, st'.pend = none ∧ st'.out = st.flush.out ++ opn ++ '\n' :: spaces i ++ cls ∧
      ∀ fin, Prints w ({ doc := surroundBodyMembers k [] opn cls, indent := i, flat := fl } :: rest) st fin ↔
        Prints w rest st' fin := by
  refine ⟨⟨st.flush.out ++ opn ++ '\n' :: spaces i ++ cls, i + byteLen cls, none⟩, rfl, rfl, fun fin => ?_⟩
  simp [prints_iff, prChunks, surroundBodyMembers, pr, prs, txt, nl, PSt.putText, ho, hc, PSt.flush]

example : prettyPrint 80 (surroundBodyMembers 2 [(true, txt "a;".toList), (false, txt "b;".toList), (true, txt "c;".toList)]
    "{".toList "}".toList) = some "{\n  a;\n\n  b;\n  c;\n}".toList := by decide

end Afmt
