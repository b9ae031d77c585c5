import Verif.PrinterLemmas2

/-!
# The layout at two widths

What the printer writes at a greater width is what it writes at a smaller one, provided the lines written are no longer
than the smaller width and no blank was left out on the way.
-/

namespace Afmt
namespace Width

/-! ### The operations carried out -/

mutual
/-- The primitive operations `pr` carries out, in order. -/
def tr (w : Nat) : Doc → Nat → Bool → List Chunk → PSt → List Op
  | .newline, i, _, _, _ => [.pend i]
  | .newlineWithNoIndent, _, _, _, _ => [.bare]
  | .softline, i, fl, _, _ => if fl then [.space] else [.pend i]
  | .maybeline, i, fl, _, _ => if fl then [] else [.pend i]
  | .forceBreak, _, _, _, _ => []
  | .text s n, _, _, _, _ => [.text s n]
  | .flat d, i, _, rest, st => tr w d i true rest st
  | .indent n d, i, fl, rest, st => tr w d (i + n) fl rest st
  | .dedent n d, i, fl, rest, st => tr w d (i - n) fl rest st
  | .concat ds, i, fl, rest, st => trs w ds i fl rest st
  | .choice x y, i, fl, rest, st =>
    .flush :: (if fl then tr w x i fl rest st.flush
      else if fitsS (w - st.flush.col) { doc := x, indent := i, flat := fl } rest then tr w x i fl rest st.flush
      else tr w y i fl rest st.flush)
def trs (w : Nat) : List Doc → Nat → Bool → List Chunk → PSt → List Op
  | [], _, _, _, _ => []
  | d :: ds, i, fl, rest, st =>
    tr w d i fl (ds.map (fun d => { doc := d, indent := i, flat := fl }) ++ rest) st ++
      trs w ds i fl rest (pr w d i fl (ds.map (fun d => { doc := d, indent := i, flat := fl }) ++ rest) st)
end

/-- The same for a list of chunks. -/
def trChunks (w : Nat) : List Chunk → PSt → List Op
  | [], _ => []
  | c :: cs, st => tr w c.doc c.indent c.flat cs st ++ trChunks w cs (pr w c.doc c.indent c.flat cs st)

theorem trChunks_map (w : Nat) (ds : List Doc) (i : Nat) (fl : Bool) (rest : List Chunk) (st : PSt) :
    trChunks w (ds.map (fun d => { doc := d, indent := i, flat := fl }) ++ rest) st =
      trs w ds i fl rest st ++ trChunks w rest (prs w ds i fl rest st) := by
  induction ds generalizing st with
  | nil => simp [prs, trs]
  | cons d ds ih => simp only [List.map_cons, List.cons_append, trChunks, trs, prs, ih, List.append_assoc]

mutual
theorem pr_tr (w : Nat) : ∀ (d : Doc) (i : Nat) (fl : Bool) (rest : List Chunk) (st : PSt),
    pr w d i fl rest st = runOps (tr w d i fl rest st) st
  | .newline, i, fl, rest, st => rfl
  | .newlineWithNoIndent, i, fl, rest, st => rfl
  | .softline, i, fl, rest, st => by cases fl <;> rfl
  | .maybeline, i, fl, rest, st => by cases fl <;> rfl
  | .forceBreak, i, fl, rest, st => rfl
  | .text s n, i, fl, rest, st => rfl
  | .flat d, i, fl, rest, st => by simpa only [pr, tr] using pr_tr w d i true rest st
  | .indent n d, i, fl, rest, st => by simpa only [pr, tr] using pr_tr w d (i + n) fl rest st
  | .dedent n d, i, fl, rest, st => by simpa only [pr, tr] using pr_tr w d (i - n) fl rest st
  | .concat ds, i, fl, rest, st => by simpa only [pr, tr] using prs_trs w ds i fl rest st
  | .choice x y, i, fl, rest, st => by
      simp only [pr, tr, runOps_cons, Op.run]
      split
      · exact pr_tr w x i fl rest st.flush
      · split
        · exact pr_tr w x i fl rest st.flush
        · exact pr_tr w y i fl rest st.flush
theorem prs_trs (w : Nat) : ∀ (ds : List Doc) (i : Nat) (fl : Bool) (rest : List Chunk) (st : PSt),
    prs w ds i fl rest st = runOps (trs w ds i fl rest st) st
  | [], i, fl, rest, st => rfl
  | d :: ds, i, fl, rest, st => by
      rw [prs, trs, runOps_append, ← pr_tr w d i fl _ st]
      exact prs_trs w ds i fl rest _
end

theorem prChunks_tr (w : Nat) : ∀ (cs : List Chunk) (st : PSt), prChunks w cs st = runOps (trChunks w cs st) st
  | [], _ => rfl
  | c :: cs, st => by
    rw [prChunks, trChunks, runOps_append, ← pr_tr]
    exact prChunks_tr w cs _

/-- The operation writes its text in full; a blank is left out only at the start of a line. -/
def keeps : Op → PSt → Bool
  | .text s _, st => !(s == [' '] && (st.pend == none && endsWithSpace st.out))
  | _, _ => true

/-- Every operation does. -/
def steady : List Op → PSt → Bool
  | [], _ => true
  | o :: os, st => keeps o st && steady os (o.run st)

theorem steady_append (a b : List Op) (st : PSt) : steady (a ++ b) st = (steady a st && steady b (runOps a st)) := by
  induction a generalizing st with
  | nil => rfl
  | cons o os ih => rw [List.cons_append, steady, steady, ih, Bool.and_assoc]; rfl

/-- Printing the document at width `w` leaves no blank out except at the start of a line. -/
def Steady (w : Nat) (d : Doc) : Prop := steady (tr w d 0 false [] PSt.init) PSt.init = true

/-! ### Flat text is at least as wide -/

mutual
theorem upto_flat : ∀ (d : Doc), d.GroupOnly →
    (d.upto false).1 ≤ (d.upto true).1 ∧ ((d.upto true).2 = true → (d.upto false).2 = true)
  | .newline, _ => by simp [Doc.upto]
  | .newlineWithNoIndent, _ => by simp [Doc.upto]
  | .softline, _ => by simp [Doc.upto]
  | .maybeline, _ => by simp [Doc.upto]
  | .forceBreak, _ => by simp [Doc.upto]
  | .text s n, _ => by simp [Doc.upto]
  | .flat d, _ => by simp [Doc.upto]
  | .indent n d, h => by simpa only [Doc.upto] using upto_flat d h
  | .dedent n d, h => by simpa only [Doc.upto] using upto_flat d h
  | .concat ds, h => by simpa only [Doc.upto] using uptos_flat ds h
  | .choice x y, h => by
      have hx := h.1
      have := upto_flat y h.2
      simp only [Doc.upto, Bool.false_eq_true, if_false, if_true, hx]
      exact this
theorem uptos_flat : ∀ (ds : List Doc), Doc.GroupOnlys ds →
    (Doc.uptos ds false).1 ≤ (Doc.uptos ds true).1 ∧ ((Doc.uptos ds true).2 = true → (Doc.uptos ds false).2 = true)
  | [], _ => by simp [Doc.uptos]
  | d :: ds, h => by
      obtain ⟨h1, h2⟩ := upto_flat d h.1
      obtain ⟨h3, h4⟩ := uptos_flat ds h.2
      simp only [Doc.uptos, Upto.seq]
      cases ha : (d.upto false).2 <;> cases hb : (d.upto true).2
      · simp only [Bool.false_eq_true, if_false]; exact ⟨by omega, h4⟩
      · rw [h2 hb] at ha; cases ha
      · simp only [Bool.false_eq_true, if_false, if_true]; exact ⟨by omega, fun _ => ha⟩
      · simp only [if_true]; exact ⟨h1, fun _ => ha⟩
end

theorem seq_le : ∀ (a b c : Upto), a.1 ≤ b.1 → (b.2 = true → a.2 = true) → (a.seq c).1 ≤ (b.seq c).1
  | (a1, a2), (b1, b2), (c1, c2), h1, h2 => by
    cases a2 <;> cases b2 <;> simp [Upto.seq] at * <;> omega

theorem seq_assoc : ∀ (a b c : Upto), a.seq (b.seq c) = (a.seq b).seq c
  | (a1, a2), (b1, b2), (c1, c2) => by
    cases a2 <;> cases b2 <;> simp [Upto.seq, Nat.add_assoc]

theorem chunksUpto_group {y : Doc} (h : y.GroupOnly) (i : Nat) (rest : List Chunk) :
    (chunksUpto (⟨y, i, false⟩ :: rest)).1 ≤ (chunksUpto (⟨.flat y, i, false⟩ :: rest)).1 := by
  obtain ⟨h1, h2⟩ := upto_flat y h
  simp only [chunksUpto, Doc.upto]
  exact seq_le _ _ _ h1 h2

theorem chunksUpto_append (a b : List Chunk) : chunksUpto (a ++ b) = (chunksUpto a).seq (chunksUpto b) := by
  induction a with
  | nil => simp [chunksUpto, Upto.seq]
  | cons c cs ih => simp only [List.cons_append, chunksUpto, ih, seq_assoc]

theorem chunksUpto_map (ds : List Doc) (i : Nat) (fl : Bool) :
    chunksUpto (ds.map (fun d => { doc := d, indent := i, flat := fl })) = Doc.uptos ds fl := by
  induction ds with
  | nil => rfl
  | cons d ds ih => simp only [List.map_cons, chunksUpto, Doc.uptos, ih]

/-! ### A group that fits in more room fits in what it takes -/

mutual
theorem scan_shrink : ∀ (d : Doc) (fl : Bool) (r r' : Nat), scan true d fl r' ≠ .stop false → (d.upto fl).1 ≤ r →
    scan true d fl r = Scan.ofUpto (d.upto fl) r
  | .newline, fl, r, r', _, _ => by simp [scan, Doc.upto, Scan.ofUpto]
  | .newlineWithNoIndent, fl, r, r', _, _ => by simp [scan, Doc.upto, Scan.ofUpto]
  | .forceBreak, fl, r, r', h, _ => by simp [scan] at h
  | .softline, fl, r, r', _, _ => by cases fl <;> simp [scan, Doc.upto, Scan.ofUpto]
  | .maybeline, fl, r, r', _, _ => by cases fl <;> simp [scan, Doc.upto, Scan.ofUpto]
  | .text s n, fl, r, r', _, _ => by simp [scan, Doc.upto, Scan.ofUpto]
  | .flat d, fl, r, r', h, h' => by simpa only [scan, Doc.upto] using scan_shrink d true r r' h h'
  | .indent _ d, fl, r, r', h, h' => by simpa only [scan, Doc.upto] using scan_shrink d fl r r' h h'
  | .dedent _ d, fl, r, r', h, h' => by simpa only [scan, Doc.upto] using scan_shrink d fl r r' h h'
  | .concat ds, fl, r, r', h, h' => by simpa only [scan, Doc.upto] using scans_shrink ds fl r r' h h'
  | .choice x y, fl, r, r', h, h' => by
      cases fl
      · simp only [scan, Doc.upto, Bool.false_eq_true, if_false] at h h' ⊢; exact scan_shrink y false r r' h h'
      · simp only [scan, Doc.upto, if_true] at h h' ⊢; exact scan_shrink x true r r' h h'
theorem scans_shrink : ∀ (ds : List Doc) (fl : Bool) (r r' : Nat), scans true ds fl r' ≠ .stop false → (Doc.uptos ds fl).1 ≤ r →
    scans true ds fl r = Scan.ofUpto (Doc.uptos ds fl) r
  | [], fl, r, r', _, _ => by simp [scans, Doc.uptos, Scan.ofUpto]
  | d :: ds, fl, r, r', h, h' => by
      simp only [scans] at h ⊢
      have hd : scan true d fl r' ≠ .stop false := by
        intro e; rw [e] at h; exact h rfl
      have hle : (d.upto fl).1 ≤ r := by
        simp only [Doc.uptos, Upto.seq] at h'
        split at h'
        · exact h'
        · simp only at h'; omega
      rw [scan_shrink d fl r r' hd hle, Doc.uptos, Scan.ofUpto_seq]
      cases e : Scan.ofUpto (d.upto fl) r with
      | stop b => rfl
      | cont s =>
        simp only
        have hns : (d.upto fl).2 = false := by
          cases hb : (d.upto fl).2
          · rfl
          · simp [Scan.ofUpto, hb, hle] at e
        have hs : s = r - (d.upto fl).1 := by
          simp [Scan.ofUpto, hns, hle] at e; exact e.symm
        have h2 : (Doc.uptos ds fl).1 ≤ s := by
          simp only [Doc.uptos, Upto.seq, hns, Bool.false_eq_true, if_false] at h'
          omega
        cases e' : scan true d fl r' with
        | stop b =>
          cases b
          · exact absurd e' hd
          · have hm := scan_mono true false (by simp) d fl r' r' (Nat.le_refl _)
            rw [e', scan_upto] at hm
            have : Scan.ofUpto (d.upto fl) r' = .stop true := by
              cases hq : Scan.ofUpto (d.upto fl) r' with
              | stop b => rw [hq] at hm; simp [Scan.le] at hm; rw [hm]
              | cont q => rw [hq] at hm; simp [Scan.le] at hm
            simp only [Scan.ofUpto, hns] at this
            split at this <;> simp at this
        | cont q =>
          rw [e'] at h
          exact scans_shrink ds fl s q h h2
end

theorem fitsS_shrink {r r' : Nat} {c : Chunk} {rest : List Chunk} (h : fitsS r' c rest = true)
    (h' : (chunksUpto (c :: rest)).1 ≤ r) : fitsS r c rest = true := by
  have hd : scan true c.doc c.flat r' ≠ .stop false := by
    intro e; rw [fitsS, e] at h; cases h
  have hle : (c.doc.upto c.flat).1 ≤ r := by
    simp only [chunksUpto, Upto.seq] at h'
    split at h'
    · exact h'
    · simp only at h'; omega
  rw [fitsS, scan_shrink c.doc c.flat r r' hd hle]
  cases e : Scan.ofUpto (c.doc.upto c.flat) r with
  | stop b =>
    simp only [Scan.ofUpto, hle, if_true] at e
    split at e <;> simp at e
    exact e
  | cont s =>
    have hns : (c.doc.upto c.flat).2 = false := by
      cases hb : (c.doc.upto c.flat).2
      · rfl
      · simp [Scan.ofUpto, hb, hle] at e
    have hs : s = r - (c.doc.upto c.flat).1 := by
      simp [Scan.ofUpto, hns, hle] at e; exact e.symm
    simp only [chunksUpto_answer, decide_eq_true_eq]
    simp only [chunksUpto, Upto.seq, hns, Bool.false_eq_true, if_false] at h'
    omega

theorem fitsS_mono {r r' : Nat} (hr : r ≤ r') {c : Chunk} {rest : List Chunk} (h : fitsS r c rest = true) :
    fitsS r' c rest = true := by
  have h1 := scan_mono true true id c.doc c.flat r r' hr
  simp only [fitsS] at h ⊢
  cases e1 : scan true c.doc c.flat r with
  | stop b =>
    simp only [e1] at h
    subst h
    cases e2 : scan true c.doc c.flat r' with
    | stop b => simp [e1, e2, Scan.le] at h1; exact h1
    | cont q => simp [e1, e2, Scan.le] at h1
  | cont q =>
    simp only [e1] at h
    cases e2 : scan true c.doc c.flat r' with
    | stop b => simp [e1, e2, Scan.le] at h1
    | cont q2 =>
      rw [e1, e2] at h1
      exact Scan.le_answer (scanChunks_mono false false id rest q q2 h1) h

/-! ### Lines -/

/-- Every line of the text is at most `w` bytes wide. -/
def Within (w : Nat) (s : Str) : Prop := ∀ l ∈ splitNl s, byteLen l ≤ w

theorem splitNl_line : ∀ (b : Str), ∃ ls, splitNl b = firstLine b :: ls
  | [] => ⟨[], rfl⟩
  | c :: b => by
    obtain ⟨ls, h⟩ := splitNl_line b
    by_cases hc : c = '\n'
    · subst hc; exact ⟨splitNl b, by simp [splitNl, firstLine]⟩
    · refine ⟨ls, ?_⟩
      rw [splitNl, if_neg hc, h]
      simp [firstLine, List.takeWhile_cons, hc]

theorem lastLine_of_mem {a : Str} (c : Char) (hm : '\n' ∈ a) : lastLine (c :: a) = lastLine a := by
  unfold lastLine
  rw [List.reverse_cons, List.takeWhile_append, if_neg]
  intro hl
  have h3 := (List.takeWhile_prefix (l := a.reverse) (· != '\n')).eq_of_length hl
  have h4 : '\n' ∈ a.reverse.takeWhile (· != '\n') := by rw [h3]; simpa using hm
  have := List.all_eq_true.1 (List.all_takeWhile (p := (· != '\n')) (l := a.reverse)) _ h4
  simp at this

theorem lastLine_of_not_mem {a : Str} (hm : '\n' ∉ a) : lastLine a = a := by
  have := lastLine_append_of_no_nl (a := []) hm
  simpa [lastLine] using this

theorem splitNl_first {a : Str} (b : Str) (hm : '\n' ∉ a) : a ++ firstLine b ∈ splitNl (a ++ b) := by
  obtain ⟨ls, h⟩ := splitNl_line (a ++ b)
  rw [h, firstLine_append_of_no_nl hm]
  exact List.mem_cons_self

/-- The line in which a text is cut in two is one of its lines. -/
theorem splitNl_cut' (b : Str) : ∀ (a : Str), lastLine a ++ firstLine b ∈ splitNl (a ++ b) ∧
    ('\n' ∈ a → lastLine a ++ firstLine b ∈ (splitNl (a ++ b)).tail)
  | [] => ⟨splitNl_first (a := []) b (by simp), by simp⟩
  | c :: a => by
    obtain ⟨_, h2⟩ := splitNl_cut' b a
    obtain ⟨ls, h⟩ := splitNl_line (a ++ b)
    by_cases hm : '\n' ∈ a
    · have key : lastLine (c :: a) ++ firstLine b ∈ (splitNl (c :: a ++ b)).tail := by
        rw [lastLine_of_mem c hm, List.cons_append, splitNl]
        have h3 := h2 hm
        split
        · exact List.mem_of_mem_tail h3
        · rw [h] at h3 ⊢; exact h3
      exact ⟨List.mem_of_mem_tail key, fun _ => key⟩
    · by_cases hc : c = '\n'
      · subst hc
        have key : lastLine ('\n' :: a) ++ firstLine b ∈ (splitNl ('\n' :: a ++ b)).tail := by
          rw [show lastLine ('\n' :: a) = a from lastLine_append_nl_cons (a := []) hm, List.cons_append, splitNl, if_pos rfl]
          exact splitNl_first b hm
        exact ⟨List.mem_of_mem_tail key, fun _ => key⟩
      · have hn : '\n' ∉ c :: a := by simp [hm, Ne.symm hc]
        refine ⟨?_, fun h => absurd h hn⟩
        rw [lastLine_of_not_mem hn]
        exact splitNl_first b hn

theorem Within.cut {w : Nat} {a b : Str} (h : Within w (a ++ b)) : byteLen (lastLine a) + byteLen (firstLine b) ≤ w := by
  rw [← byteLen_append]
  exact h _ (splitNl_cut' b a).1

/-! ### The line is written as far as the look-ahead measures -/

/-- What the printer relies on: texts within one line which carry their width, choices that are groups. -/
def Good (d : Doc) : Prop := d.AllText (fun s n => '\n' ∉ s ∧ n = byteLen s) ∧ d.GroupOnly

theorem goods {ds : List Doc} (h : Good (.concat ds)) {d : Doc} (hd : d ∈ ds) : Good d :=
  ⟨Doc.allTexts_iff.1 h.1 d hd, Doc.groupOnlys_iff.1 h.2 d hd⟩

theorem prChunks_grows (w : Nat) (cs : List Chunk) (st : PSt) : ∃ t, (prChunks w cs st).flush.out = st.out ++ t := by
  rw [prChunks_tr]
  obtain ⟨t, h⟩ := runOps_out (trChunks w cs st ++ [.flush]) st
  rw [runOps_append] at h
  exact ⟨t, h⟩

theorem line_reaches (w : Nat) : ∀ (n : Nat) (cs : List Chunk) (st : PSt), chunksCost cs ≤ n →
    (∀ c ∈ cs, Good c.doc) → st.pend = none → steady (trChunks w cs st) st = true →
    ∃ more, (prChunks w cs st).flush.out = st.out ++ more ∧ (chunksUpto cs).1 ≤ byteLen (firstLine more) := by
  intro n
  induction n with
  | zero =>
    intro cs st hn _ hp _
    match cs with
    | [] => exact ⟨[], by simp [prChunks, PSt.flush_of_none hp], by simp [chunksUpto]⟩
    | c :: cs => have := Doc.cost_pos c.doc; simp only [chunksCost] at hn; omega
  | succ n ih =>
    intro cs st hn hw hp hs
    match cs with
    | [] => exact ⟨[], by simp [prChunks, PSt.flush_of_none hp], by simp [chunksUpto]⟩
    | c :: rest =>
      obtain ⟨d, i, fl⟩ := c
      have hd := Doc.cost_pos d
      have hwd : Good d := hw ⟨d, i, fl⟩ (by simp)
      have hwr : ∀ c ∈ rest, Good c.doc := fun c hc => hw c (by simp [hc])
      have hzero : ∀ (st' : PSt) t, st'.out = st.out ++ t → ∀ u : Upto, u.1 = 0 →
          ∃ more, (prChunks w rest st').flush.out = st.out ++ more ∧ u.1 ≤ byteLen (firstLine more) := by
        intro st' t h u hu
        obtain ⟨t', h'⟩ := prChunks_grows w rest st'
        exact ⟨t ++ t', by rw [h', h, List.append_assoc], by omega⟩
      have hcons : ∀ (c' : Chunk), Good c'.doc → ∀ c ∈ c' :: rest, Good c.doc := by
        intro c' h c hc
        rcases List.mem_cons.1 hc with rfl | hc
        · exact h
        · exact hwr c hc
      cases d <;> simp only [chunksCost, Doc.cost] at hn <;> simp only [prChunks, pr] <;>
        simp only [trChunks, tr, pr, steady_append, Bool.and_eq_true] at hs <;>
        simp only [chunksUpto, Doc.upto]
      case newline => exact hzero _ [] (by simp) _ (by simp [Upto.seq])
      case newlineWithNoIndent => exact hzero _ ['\n'] rfl _ (by simp [Upto.seq])
      case forceBreak =>
        obtain ⟨more, h1, h2⟩ := ih rest st (by omega) hwr hp hs.2
        exact ⟨more, h1, by simpa [Upto.seq] using h2⟩
      case softline =>
        cases fl
        · exact hzero _ [] (by simp) _ (by simp [Upto.seq])
        · simp only [if_true] at hs ⊢
          obtain ⟨more, h1, h2⟩ := ih rest st.putSpace (by omega) hwr hp hs.2
          refine ⟨' ' :: more, by rw [h1]; simp [PSt.putSpace], ?_⟩
          have hb : byteLen [' '] = 1 := by decide
          have : firstLine (' ' :: more) = [' '] ++ firstLine more := firstLine_append_of_no_nl (a := [' ']) (by decide)
          rw [this, byteLen_append, hb]
          simp only [Upto.seq, Bool.false_eq_true, if_false]
          omega
      case maybeline =>
        cases fl
        · exact hzero _ [] (by simp) _ (by simp [Upto.seq])
        · simp only [if_true] at hs ⊢
          obtain ⟨more, h1, h2⟩ := ih rest st (by omega) hwr hp hs.2
          exact ⟨more, h1, by simpa [Upto.seq] using h2⟩
      case text s width =>
        obtain ⟨hnl, hwid⟩ : '\n' ∉ s ∧ width = byteLen s := hwd.1
        have hk : keeps (.text s width) st = true := by
          have := hs.1
          simp only [steady, Bool.and_true] at this
          exact this
        have hput : st.flush.putText s width = { st with out := st.out ++ s, col := st.col + width } := by
          rw [PSt.flush_of_none hp, PSt.putText, if_neg]
          rintro ⟨h1, h2⟩
          simp [keeps, h1, h2, hp] at hk
        have hrun : runOps [.text s width] st = { st with out := st.out ++ s, col := st.col + width } := hput
        rw [hput] at hs ⊢
        rw [hrun] at hs
        obtain ⟨more, h1, h2⟩ := ih rest { st with out := st.out ++ s, col := st.col + width } (by omega) hwr hp hs.2
        refine ⟨s ++ more, by rw [h1]; simp, ?_⟩
        rw [firstLine_append_of_no_nl hnl, byteLen_append]
        simp only [Upto.seq, Bool.false_eq_true, if_false]
        omega
      case flat d =>
        have := ih (⟨d, i, true⟩ :: rest) st (by simp only [chunksCost]; omega) (hcons _ hwd) hp
          (by simp only [trChunks, steady_append, Bool.and_eq_true]; exact hs)
        simpa only [prChunks, chunksUpto] using this
      case indent m d =>
        have := ih (⟨d, i + m, fl⟩ :: rest) st (by simp only [chunksCost]; omega) (hcons _ hwd) hp
          (by simp only [trChunks, steady_append, Bool.and_eq_true]; exact hs)
        simpa only [prChunks, chunksUpto] using this
      case dedent m d =>
        have := ih (⟨d, i - m, fl⟩ :: rest) st (by simp only [chunksCost]; omega) (hcons _ hwd) hp
          (by simp only [trChunks, steady_append, Bool.and_eq_true]; exact hs)
        simpa only [prChunks, chunksUpto] using this
      case concat ds =>
        have := ih (ds.map (fun d => { doc := d, indent := i, flat := fl }) ++ rest) st
          (by simp only [chunksCost_append, chunksCost_map]; omega)
          (by
            intro c hc
            rcases List.mem_append.1 hc with hc | hc
            · simp only [List.mem_map] at hc
              obtain ⟨d, hd, rfl⟩ := hc
              exact goods hwd hd
            · exact hwr c hc) hp
          (by rw [trChunks_map, steady_append, Bool.and_eq_true, ← prs_trs]; rw [← prs_trs] at hs; exact hs)
        rw [prChunks_map, chunksUpto_append, chunksUpto_map] at this
        exact this
      case choice x y =>
        rw [PSt.flush_of_none hp] at hs ⊢
        obtain ⟨hx, hy⟩ : x = .flat y ∧ y.GroupOnly := hwd.2
        have hgx : Good x := ⟨hwd.1.1, by rw [hx]; exact hy⟩
        have hgy : Good y := ⟨hwd.1.2, hy⟩
        have hcx : chunksCost (⟨x, i, fl⟩ :: rest) ≤ n := by simp only [chunksCost]; omega
        have hcy : chunksCost (⟨y, i, fl⟩ :: rest) ≤ n := by simp only [chunksCost]; omega
        have hfl : Op.flush.run st = st := PSt.flush_of_none hp
        simp only [steady, keeps, Bool.true_and, hfl, runOps_cons] at hs
        have ihx := ih (⟨x, i, fl⟩ :: rest) st hcx (hcons _ hgx) hp
        have ihy := ih (⟨y, i, fl⟩ :: rest) st hcy (hcons _ hgy) hp
        simp only [trChunks, steady_append, Bool.and_eq_true, prChunks, chunksUpto] at ihx ihy
        cases fl
        · simp only [Bool.false_eq_true, if_false] at hs ⊢
          by_cases hf : fitsS (w - st.col) { doc := x, indent := i, flat := false } rest = true
          · simp only [if_pos hf] at hs ⊢
            obtain ⟨more, h1, h2⟩ := ihx hs
            refine ⟨more, h1, ?_⟩
            have := chunksUpto_group hy i rest
            simp only [chunksUpto, ← hx] at this
            omega
          · simp only [if_neg hf] at hs ⊢
            exact ihy hs
        · simp only [if_true] at hs ⊢
          exact ihx hs

/-! ### The same text at both widths -/

theorem same_chunks {w w' : Nat} (hww : w ≤ w') : ∀ (n : Nat) (cs : List Chunk) (st : PSt), chunksCost cs ≤ n →
    (∀ c ∈ cs, Good c.doc) → ColOk st → steady (trChunks w' cs st) st = true →
    Within w (prChunks w' cs st).flush.out → prChunks w cs st = prChunks w' cs st := by
  intro n
  induction n with
  | zero =>
    intro cs st hn _ _ _ _
    match cs with
    | [] => rfl
    | c :: cs => have := Doc.cost_pos c.doc; simp only [chunksCost] at hn; omega
  | succ n ih =>
    intro cs st hn hw hc hs hl
    match cs with
    | [] => rfl
    | c :: rest =>
      obtain ⟨d, i, fl⟩ := c
      have hd := Doc.cost_pos d
      have hwd : Good d := hw ⟨d, i, fl⟩ (by simp)
      have hwr : ∀ c ∈ rest, Good c.doc := fun c hc => hw c (by simp [hc])
      have hcons : ∀ (c' : Chunk), Good c'.doc → ∀ c ∈ c' :: rest, Good c.doc := by
        intro c' h c hc
        rcases List.mem_cons.1 hc with rfl | hc
        · exact h
        · exact hwr c hc
      have hrun : ∀ op : Op, (∀ s n, op = .text s n → '\n' ∉ s ∧ n = byteLen s) → ColOk (op.run st) := fun op h => hc.run h
      cases d <;> simp only [chunksCost, Doc.cost] at hn <;> simp only [prChunks, pr] at hl ⊢ <;>
        simp only [trChunks, tr, pr, steady_append, Bool.and_eq_true] at hs
      case newline => exact ih rest _ (by omega) hwr (hrun (.pend i) nofun) hs.2 hl
      case newlineWithNoIndent => exact ih rest _ (by omega) hwr (hrun .bare nofun) hs.2 hl
      case forceBreak => exact ih rest _ (by omega) hwr hc hs.2 hl
      case softline =>
        cases fl
        · exact ih rest _ (by omega) hwr (hrun (.pend i) nofun) hs.2 hl
        · exact ih rest _ (by omega) hwr (hrun .space nofun) hs.2 hl
      case maybeline =>
        cases fl
        · exact ih rest _ (by omega) hwr (hrun (.pend i) nofun) hs.2 hl
        · exact ih rest _ (by omega) hwr hc hs.2 hl
      case text s width =>
        exact ih rest _ (by omega) hwr (hrun (.text s width) (fun _ _ e => by cases e; exact hwd.1)) hs.2 hl
      case flat d =>
        have := ih (⟨d, i, true⟩ :: rest) st (by simp only [chunksCost]; omega) (hcons _ hwd) hc
          (by simp only [trChunks, steady_append, Bool.and_eq_true]; exact hs) hl
        simpa only [prChunks] using this
      case indent m d =>
        have := ih (⟨d, i + m, fl⟩ :: rest) st (by simp only [chunksCost]; omega) (hcons _ hwd) hc
          (by simp only [trChunks, steady_append, Bool.and_eq_true]; exact hs) hl
        simpa only [prChunks] using this
      case dedent m d =>
        have := ih (⟨d, i - m, fl⟩ :: rest) st (by simp only [chunksCost]; omega) (hcons _ hwd) hc
          (by simp only [trChunks, steady_append, Bool.and_eq_true]; exact hs) hl
        simpa only [prChunks] using this
      case concat ds =>
        have := ih (ds.map (fun d => { doc := d, indent := i, flat := fl }) ++ rest) st
          (by simp only [chunksCost_append, chunksCost_map]; omega)
          (by
            intro c hc
            rcases List.mem_append.1 hc with hc | hc
            · simp only [List.mem_map] at hc
              obtain ⟨d, hd, rfl⟩ := hc
              exact goods hwd hd
            · exact hwr c hc) hc
          (by rw [trChunks_map, steady_append, Bool.and_eq_true, ← prs_trs]; rw [← prs_trs] at hs; exact hs)
          (by rw [prChunks_map]; exact hl)
        rw [prChunks_map, prChunks_map] at this
        exact this
      case choice x y =>
        obtain ⟨hx, hy⟩ : x = .flat y ∧ y.GroupOnly := hwd.2
        have hgx : Good x := ⟨hwd.1.1, by rw [hx]; exact hy⟩
        have hgy : Good y := ⟨hwd.1.2, hy⟩
        have hcx : chunksCost (⟨x, i, fl⟩ :: rest) ≤ n := by simp only [chunksCost]; omega
        have hcy : chunksCost (⟨y, i, fl⟩ :: rest) ≤ n := by simp only [chunksCost]; omega
        have hp : st.flush.pend = none := st.flush_pend
        have hcf : ColOk st.flush := hc.flush
        simp only [steady, keeps, Bool.true_and, runOps_cons, Op.run] at hs
        have ihx := ih (⟨x, i, fl⟩ :: rest) st.flush hcx (hcons _ hgx) hcf
        have ihy := ih (⟨y, i, fl⟩ :: rest) st.flush hcy (hcons _ hgy) hcf
        simp only [trChunks, steady_append, Bool.and_eq_true, prChunks] at ihx ihy
        cases fl
        · simp only [Bool.false_eq_true, if_false] at hs hl ⊢
          by_cases hf : fitsS (w' - st.flush.col) { doc := x, indent := i, flat := false } rest = true
          · simp only [if_pos hf] at hs hl ⊢
            have hreach := line_reaches w' n (⟨x, i, false⟩ :: rest) st.flush hcx (hcons _ hgx) hp
              (by simp only [trChunks, steady_append, Bool.and_eq_true]; exact hs)
            simp only [prChunks] at hreach
            obtain ⟨more, h1, h2⟩ := hreach
            have h3 := hl
            rw [h1] at h3
            have h4 := h3.cut
            have h5 : st.flush.col = byteLen (lastLine st.flush.out) := hcf
            rw [if_pos (fitsS_shrink hf (by omega))]
            exact ihx hs hl
          · simp only [if_neg hf] at hs hl ⊢
            rw [if_neg (fun h => hf (fitsS_mono (by omega) h))]
            exact ihy hs hl
        · simp only [if_true] at hs hl ⊢
          exact ihx hs hl

/-- The layout at a greater width is also the layout at a smaller one if its lines are that short. -/
theorem layout_same {w w' : Nat} (hww : w ≤ w') {d : Doc} (hd : Good d) (hs : Steady w' d) (hl : Within w (layout w' d)) :
    layout w d = layout w' d := by
  have h := same_chunks hww _ [⟨d, 0, false⟩] PSt.init (Nat.le_refl _) (by simpa using hd) ColOk.init
    (by simp only [trChunks, List.append_nil]; exact hs) (by simpa only [prChunks, layout] using hl)
  simp only [prChunks] at h
  unfold layout
  rw [h]

end Width
end Afmt
