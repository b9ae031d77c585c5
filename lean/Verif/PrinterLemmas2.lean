import Verif.PrinterLemmas

/-!
# More printer lemmas: reachability, columns, output pieces, flat layout
-/

namespace Afmt

/-- Configurations (stack, state) the printing loop goes through when printing `d` at width `w`. -/
inductive Reachable (w : Nat) (d : Doc) : List Chunk → PSt → Prop
  | start : Reachable w d [{ doc := d, indent := 0, flat := false }] PSt.init
  | step {c rest st cs st'} : Reachable w d (c :: rest) st → printStep w c rest st = some (cs, st') →
      Reachable w d cs st'

/-- Every iteration performs primitive operations caused by the popped chunk only. -/
theorem printStep_ops {w : Nat} {c : Chunk} {rest : List Chunk} {st : PSt} {cs : List Chunk} {st' : PSt}
    (h : printStep w c rest st = some (cs, st')) :
    ∃ ops, st' = runOps ops st ∧ (∀ op ∈ ops, op.FromAt (c.doc.At c.indent)) ∧
      ∀ c' ∈ cs, c' ∈ rest ∨ ∀ l j, c'.doc.At c'.indent l j → c.doc.At c.indent l j := by
  obtain ⟨d, i, fl⟩ := c
  have hrest : ∀ cs : List Chunk, cs = rest → ∀ c' ∈ cs, c' ∈ rest ∨
      ∀ l j, c'.doc.At c'.indent l j → d.At i l j := by rintro _ rfl c' h; exact .inl h
  cases d <;> simp only [printStep] at h
  case newline =>
    simp at h; obtain ⟨rfl, rfl⟩ := h
    exact ⟨[.pend i], by simp [Op.run], by simp [Op.FromAt, Doc.At], hrest _ rfl⟩
  case newlineWithNoIndent =>
    simp at h; obtain ⟨rfl, rfl⟩ := h
    exact ⟨[.bare], by simp [Op.run], by simp [Op.FromAt, Doc.At], hrest _ rfl⟩
  case forceBreak =>
    simp at h; obtain ⟨rfl, rfl⟩ := h
    exact ⟨[], by simp, by simp, hrest _ rfl⟩
  case text s n =>
    simp at h; obtain ⟨rfl, rfl⟩ := h
    exact ⟨[.text s n], by simp [Op.run], by simp [Op.FromAt, Doc.At], hrest _ rfl⟩
  case softline =>
    cases fl <;> simp at h <;> obtain ⟨rfl, rfl⟩ := h
    · exact ⟨[.pend i], by simp [Op.run], by simp [Op.FromAt, Doc.At], hrest _ rfl⟩
    · exact ⟨[.space], by simp [Op.run], by simp [Op.FromAt, Doc.At], hrest _ rfl⟩
  case maybeline =>
    cases fl <;> simp at h <;> obtain ⟨rfl, rfl⟩ := h
    · exact ⟨[.pend i], by simp [Op.run], by simp [Op.FromAt, Doc.At], hrest _ rfl⟩
    · exact ⟨[], by simp, by simp, hrest _ rfl⟩
  case flat d =>
    simp at h; obtain ⟨rfl, rfl⟩ := h
    refine ⟨[], by simp, by simp, ?_⟩
    intro c' hc'
    rcases List.mem_cons.1 hc' with rfl | hc'
    · exact .inr fun l j h => by simpa only [Doc.At] using h
    · exact .inl hc'
  case indent n d =>
    simp at h; obtain ⟨rfl, rfl⟩ := h
    refine ⟨[], by simp, by simp, ?_⟩
    intro c' hc'
    rcases List.mem_cons.1 hc' with rfl | hc'
    · exact .inr fun l j h => by simpa only [Doc.At] using h
    · exact .inl hc'
  case dedent n d =>
    simp at h; obtain ⟨rfl, rfl⟩ := h
    refine ⟨[], by simp, by simp, ?_⟩
    intro c' hc'
    rcases List.mem_cons.1 hc' with rfl | hc'
    · exact .inr fun l j h => by simpa only [Doc.At] using h
    · exact .inl hc'
  case concat ds =>
    simp only [Option.some.injEq, Prod.mk.injEq] at h; obtain ⟨rfl, rfl⟩ := h
    refine ⟨[], by simp, by simp, ?_⟩
    intro c' hc'
    rcases List.mem_append.1 hc' with hc' | hc'
    · simp only [List.mem_map] at hc'
      obtain ⟨d, hd, rfl⟩ := hc'
      exact .inr fun l j h => by simp only [Doc.At]; exact Doc.ats_of_mem hd h
    · exact .inl hc'
  case choice x y =>
    have hx : ∀ c' ∈ (⟨x, i, fl⟩ : Chunk) :: rest, c' ∈ rest ∨
      ∀ l j, c'.doc.At c'.indent l j → (Doc.choice x y).At i l j := by
      intro c' hc'
      rcases List.mem_cons.1 hc' with rfl | hc'
      · exact .inr fun l j h => by simp only [Doc.At]; exact .inl h
      · exact .inl hc'
    have hy : ∀ c' ∈ (⟨y, i, fl⟩ : Chunk) :: rest, c' ∈ rest ∨
      ∀ l j, c'.doc.At c'.indent l j → (Doc.choice x y).At i l j := by
      intro c' hc'
      rcases List.mem_cons.1 hc' with rfl | hc'
      · exact .inr fun l j h => by simp only [Doc.At]; exact .inr h
      · exact .inl hc'
    have hfl : ∀ op ∈ [Op.flush], op.FromAt ((Doc.choice x y).At i) := by simp [Op.FromAt]
    split at h
    · simp at h; obtain ⟨rfl, rfl⟩ := h
      exact ⟨[.flush], rfl, hfl, hx⟩
    · split at h
      · simp at h
      · simp at h; obtain ⟨rfl, rfl⟩ := h
        exact ⟨[.flush], rfl, hfl, hx⟩
      · simp at h; obtain ⟨rfl, rfl⟩ := h
        exact ⟨[.flush], rfl, hfl, hy⟩

/-- In a reachable configuration, every chunk's leaves are leaves of the document, at the same indentation, and the
state was produced by operations caused by leaves of the document. -/
theorem Reachable.ops {w : Nat} {d : Doc} {cs : List Chunk} {st : PSt} (h : Reachable w d cs st) :
    (∃ ops, st = runOps ops PSt.init ∧ ∀ op ∈ ops, op.FromAt (d.At 0)) ∧
      ∀ c ∈ cs, ∀ l j, c.doc.At c.indent l j → d.At 0 l j := by
  induction h with
  | start => exact ⟨⟨[], by simp, by simp⟩, by simp⟩
  | @step c rest st cs st' _ hs ih =>
    obtain ⟨⟨ops, e, ho⟩, hc⟩ := ih
    obtain ⟨ops', e', ho', hc'⟩ := printStep_ops hs
    have hcc := hc c (by simp)
    refine ⟨⟨ops ++ ops', by rw [runOps_append, e', e], ?_⟩, ?_⟩
    · intro op h
      rcases List.mem_append.1 h with h | h
      · exact ho op h
      · exact (ho' op h).mono hcc
    · intro x hx l j hl
      rcases hc' x hx with h | h
      · exact hc x (by simp [h]) l j hl
      · exact hcc l j (h l j hl)

/-! ### Column -/

/-- The column equals the byte width of the last line of the output. -/
def ColOk (st : PSt) : Prop := st.col = byteLen (lastLine st.out)

theorem ColOk.init : ColOk PSt.init := by simp [ColOk, PSt.init, lastLine]

theorem ColOk.flush {st : PSt} (h : ColOk st) : ColOk st.flush := by
  unfold PSt.flush
  split
  · exact h
  · simp [ColOk, lastLine_append_nl_cons (nl_not_mem_spaces _)]

theorem ColOk.run {st : PSt} (h : ColOk st) {op : Op}
    (hop : ∀ s n, op = .text s n → '\n' ∉ s ∧ n = byteLen s) : ColOk (op.run st) := by
  cases op with
  | pend i => exact h
  | bare =>
    simp only [ColOk, Op.run, PSt.bareNewline]
    rw [lastLine_append_nl_cons (b := []) (by simp)]; rfl
  | space =>
    simp only [ColOk, Op.run, PSt.putSpace]
    rw [lastLine_append_of_no_nl (by simp), byteLen_append, ← h]
    rfl
  | text s n =>
    obtain ⟨h1, h2⟩ := hop s n rfl
    have hf := h.flush
    simp only [Op.run, PSt.putText]
    split
    · exact hf
    · simp only [ColOk]
      rw [lastLine_append_of_no_nl h1, byteLen_append, ← hf, h2]
  | flush => exact h.flush

theorem ColOk.runOps {st : PSt} (h : ColOk st) {ops : List Op}
    (hop : ∀ op ∈ ops, ∀ s n, op = .text s n → '\n' ∉ s ∧ n = byteLen s) : ColOk (runOps ops st) := by
  induction ops generalizing st with
  | nil => exact h
  | cons op ops ih =>
    exact ih (h.run (hop op (by simp))) (fun o ho => hop o (by simp [ho]))

theorem byteLen_takeWhile_le (p : Char → Bool) (s : Str) : byteLen (s.takeWhile p) ≤ byteLen s := by
  induction s with
  | nil => simp
  | cons c cs ih =>
    simp only [List.takeWhile_cons]
    split
    · simp; omega
    · simp

theorem byteLen_reverse (s : Str) : byteLen s.reverse = byteLen s := by
  induction s with
  | nil => rfl
  | cons c cs ih => simp [ih]; omega

theorem byteLen_lastLine_le (s : Str) : byteLen (lastLine s) ≤ byteLen s := by
  rw [lastLine, byteLen_reverse, ← byteLen_reverse s]
  exact byteLen_takeWhile_le _ _

/-! ### Pieces of output -/

/-- What an output consists of. -/
inductive Piece where
  | text (s : Str)   -- a text leaf
  | space            -- a soft break printed as space
  | blank            -- a newline without indentation
  | line (i : Nat)   -- a newline followed by `i` spaces

def Piece.render : Piece → Str
  | .text s => s
  | .space => [' ']
  | .blank => ['\n']
  | .line i => '\n' :: spaces i

def renderPieces (ps : List Piece) : Str := (ps.map Piece.render).flatten

/-- Where a piece comes from. -/
def Piece.FromAt (P : Doc → Nat → Prop) : Piece → Prop
  | .text s => ∃ n j, P (.text s n) j
  | .space => ∃ j, P .softline j
  | .blank => ∃ j, P .newlineWithNoIndent j
  | .line i => P .newline i ∨ P .softline i ∨ P .maybeline i

/-- State invariant: output is made of pieces and the pending indentation is one of the document's. -/
def PieceOk (P : Doc → Nat → Prop) (st : PSt) : Prop :=
  (∃ ps : List Piece, st.out = renderPieces ps ∧ ∀ p ∈ ps, p.FromAt P) ∧
  ∀ i, st.pend = some i → P .newline i ∨ P .softline i ∨ P .maybeline i

theorem renderPieces_append (a b : List Piece) : renderPieces (a ++ b) = renderPieces a ++ renderPieces b := by
  simp [renderPieces]

theorem PieceOk.add {P : Doc → Nat → Prop} {out : Str} (h : ∃ ps : List Piece, out = renderPieces ps ∧ ∀ p ∈ ps, p.FromAt P)
    (p : Piece) (hp : p.FromAt P) : ∃ ps : List Piece, out ++ p.render = renderPieces ps ∧ ∀ p ∈ ps, p.FromAt P := by
  obtain ⟨ps, e, h⟩ := h
  refine ⟨ps ++ [p], ?_, ?_⟩
  · rw [renderPieces_append, e]; simp [renderPieces]
  · intro q hq
    rcases List.mem_append.1 hq with hq | hq
    · exact h q hq
    · simp at hq; rw [hq]; exact hp

theorem PieceOk.flush {P : Doc → Nat → Prop} {st : PSt} (h : PieceOk P st) : PieceOk P st.flush := by
  unfold PSt.flush
  split
  · exact h
  · next i hi =>
    exact ⟨PieceOk.add h.1 (.line i) (h.2 i hi), by simp⟩

theorem PieceOk.run {P : Doc → Nat → Prop} {st : PSt} (h : PieceOk P st) {op : Op} (ho : op.FromAt P) :
    PieceOk P (op.run st) := by
  cases op with
  | pend i => exact ⟨h.1, by simp [Op.run]; exact ho⟩
  | bare => exact ⟨PieceOk.add h.1 .blank ho, by simp [Op.run, PSt.bareNewline]⟩
  | space => exact ⟨PieceOk.add h.1 .space ho, h.2⟩
  | text s n =>
    have hf := h.flush
    simp only [Op.run, PSt.putText]
    split
    · exact hf
    · exact ⟨PieceOk.add hf.1 (.text s) ⟨n, ho⟩, hf.2⟩
  | flush => exact h.flush

theorem PieceOk.runOps {P : Doc → Nat → Prop} {st : PSt} (h : PieceOk P st) {ops : List Op}
    (ho : ∀ op ∈ ops, op.FromAt P) : PieceOk P (runOps ops st) := by
  induction ops generalizing st with
  | nil => exact h
  | cons op ops ih => exact ih (h.run (ho op (by simp))) (fun o h => ho o (by simp [h]))

mutual
/-- All `indent`/`dedent` amounts in the document are `k` (true of everything `DocBuilder` makes). -/
def Doc.Uniform (k : Nat) : Doc → Prop
  | .flat d => d.Uniform k
  | .indent n d => n = k ∧ d.Uniform k
  | .dedent n d => n = k ∧ d.Uniform k
  | .concat ds => Doc.Uniforms k ds
  | .choice x y => x.Uniform k ∧ y.Uniform k
  | _ => True
def Doc.Uniforms (k : Nat) : List Doc → Prop
  | [] => True
  | d :: ds => d.Uniform k ∧ Doc.Uniforms k ds
end

theorem Doc.uniforms_iff {k : Nat} {ds : List Doc} : Doc.Uniforms k ds ↔ ∀ d ∈ ds, d.Uniform k := by
  induction ds with
  | nil => simp [Doc.Uniforms]
  | cons d ds ih => simp [Doc.Uniforms, ih]

mutual
theorem Doc.Uniform.dvd {k : Nat} {l : Doc} {j : Nat} : ∀ {d : Doc} {i : Nat}, d.Uniform k → k ∣ i → d.At i l j → k ∣ j
  | .text .., i, h, hi, ha | .newline, i, h, hi, ha | .newlineWithNoIndent, i, h, hi, ha | .softline, i, h, hi, ha
  | .maybeline, i, h, hi, ha | .forceBreak, i, h, hi, ha => by
      simp [Doc.At] at ha; rw [ha.2]; exact hi
  | .flat d, i, h, hi, ha => Doc.Uniform.dvd (d := d) (i := i) h hi (by simpa only [Doc.At] using ha)
  | .indent m d, i, h, hi, ha => by
      obtain ⟨rfl, h⟩ := h
      exact Doc.Uniform.dvd (d := d) (i := i + m) h (Nat.dvd_add hi (Nat.dvd_refl _)) (by simpa only [Doc.At] using ha)
  | .dedent m d, i, h, hi, ha => by
      obtain ⟨rfl, h⟩ := h
      exact Doc.Uniform.dvd (d := d) (i := i - m) h (Nat.dvd_sub hi (Nat.dvd_refl _)) (by simpa only [Doc.At] using ha)
  | .concat ds, i, h, hi, ha => Doc.Uniforms.dvd (ds := ds) (i := i) h hi (by simpa only [Doc.At] using ha)
  | .choice x y, i, h, hi, ha => by
      simp only [Doc.At] at ha
      rcases ha with ha | ha
      · exact Doc.Uniform.dvd (d := x) h.1 hi ha
      · exact Doc.Uniform.dvd (d := y) h.2 hi ha
theorem Doc.Uniforms.dvd {k : Nat} {l : Doc} {j : Nat} : ∀ {ds : List Doc} {i : Nat}, Doc.Uniforms k ds → k ∣ i →
    Doc.Ats ds i l j → k ∣ j
  | [], i, h, hi, ha => by simp [Doc.Ats] at ha
  | d :: ds, i, h, hi, ha => by
      rcases ha with ha | ha
      · exact Doc.Uniform.dvd (d := d) h.1 hi ha
      · exact Doc.Uniforms.dvd (ds := ds) h.2 hi ha
end

mutual
theorem Doc.AllText.mono {P Q : Str → Nat → Prop} (h : ∀ s n, P s n → Q s n) : ∀ (d : Doc), d.AllText P → d.AllText Q
  | .text s n, hd => h s n hd
  | .newline, _ | .newlineWithNoIndent, _ | .softline, _ | .maybeline, _ | .forceBreak, _ => trivial
  | .flat d, hd => Doc.AllText.mono h d hd
  | .indent _ d, hd => Doc.AllText.mono h d hd
  | .dedent _ d, hd => Doc.AllText.mono h d hd
  | .concat ds, hd => Doc.AllTexts.mono h ds hd
  | .choice x y, hd => ⟨Doc.AllText.mono h x hd.1, Doc.AllText.mono h y hd.2⟩
theorem Doc.AllTexts.mono {P Q : Str → Nat → Prop} (h : ∀ s n, P s n → Q s n) : ∀ (ds : List Doc), Doc.AllTexts P ds → Doc.AllTexts Q ds
  | [], _ => trivial
  | d :: ds, hd => ⟨Doc.AllText.mono h d hd.1, Doc.AllTexts.mono h ds hd.2⟩
end

/-! ### Flat layout -/

mutual
/-- The one-line rendering of a document, if it has one: soft breaks are spaces, optional breaks nothing; hard
newlines and forced breaks make it impossible. -/
def Doc.flatText : Doc → Option Str
  | .newline => none
  | .newlineWithNoIndent => none
  | .forceBreak => none
  | .softline => some [' ']
  | .maybeline => some []
  | .text s _ => some s
  | .flat d => d.flatText
  | .indent _ d => d.flatText
  | .dedent _ d => d.flatText
  | .concat ds => Doc.flatTexts ds
  | .choice x _ => x.flatText
def Doc.flatTexts : List Doc → Option Str
  | [] => some []
  | d :: ds =>
    match d.flatText, Doc.flatTexts ds with
    | some a, some b => some (a ++ b)
    | _, _ => none
end

/-- Width of the text from here to the next place where the line may or must end: (width, is there such a place). -/
abbrev Upto := Nat × Bool

def Upto.seq (a : Upto) (b : Upto) : Upto := if a.2 then a else (a.1 + b.1, b.2)

mutual
/-- Text width of `d` (in the given mode) up to its first line break. -/
def Doc.upto : Doc → Bool → Upto
  | .newline, _ => (0, true)
  | .newlineWithNoIndent, _ => (0, true)
  | .forceBreak, _ => (0, false)
  | .softline, fl => if fl then (1, false) else (0, true)
  | .maybeline, fl => if fl then (0, false) else (0, true)
  | .text _ n, _ => (n, false)
  | .flat d, _ => d.upto true
  | .indent _ d, fl => d.upto fl
  | .dedent _ d, fl => d.upto fl
  | .concat ds, fl => Doc.uptos ds fl
  | .choice x y, fl => if fl then x.upto fl else y.upto fl
def Doc.uptos : List Doc → Bool → Upto
  | [], _ => (0, false)
  | d :: ds, fl => (d.upto fl).seq (Doc.uptos ds fl)
end

/-- The same for a list of chunks: width until the next possible break or the end. -/
def chunksUpto : List Chunk → Upto
  | [] => (0, false)
  | c :: cs => (c.doc.upto c.flat).seq (chunksUpto cs)

/-- Scan result determined by the width up to the next break. -/
def Scan.ofUpto (u : Upto) (rem : Nat) : Scan :=
  if u.1 ≤ rem then (if u.2 then .stop true else .cont (rem - u.1)) else .stop false

theorem Scan.ofUpto_seq (a b : Upto) (rem : Nat) :
    Scan.ofUpto (a.seq b) rem = match Scan.ofUpto a rem with | .stop x => .stop x | .cont r => Scan.ofUpto b r := by
  obtain ⟨a1, a2⟩ := a
  obtain ⟨b1, b2⟩ := b
  simp only [Scan.ofUpto, Upto.seq]
  cases a2
  · simp only [Bool.false_eq_true, if_false]
    by_cases h1 : a1 ≤ rem
    · simp only [h1, if_true]
      by_cases h2 : b1 ≤ rem - a1
      · have : a1 + b1 ≤ rem := by omega
        simp only [h2, this, if_true]
        cases b2 <;> simp; omega
      · have : ¬ (a1 + b1 ≤ rem) := by omega
        simp only [h2, this, if_false]
    · have : ¬ (a1 + b1 ≤ rem) := by omega
      simp only [h1, this, if_false]
  · simp only [if_true]
    by_cases h1 : a1 ≤ rem <;> simp [h1]

mutual
theorem scan_upto : ∀ (d : Doc) (fl : Bool) (rem : Nat), scan false d fl rem = Scan.ofUpto (d.upto fl) rem
  | .newline, fl, rem => by simp [scan, Doc.upto, Scan.ofUpto]
  | .newlineWithNoIndent, fl, rem => by simp [scan, Doc.upto, Scan.ofUpto]
  | .forceBreak, fl, rem => by simp [scan, Doc.upto, Scan.ofUpto]
  | .softline, fl, rem => by cases fl <;> simp [scan, Doc.upto, Scan.ofUpto]
  | .maybeline, fl, rem => by cases fl <;> simp [scan, Doc.upto, Scan.ofUpto]
  | .text s n, fl, rem => by simp [scan, Doc.upto, Scan.ofUpto]
  | .flat d, fl, rem => by simpa only [scan, Doc.upto] using scan_upto d true rem
  | .indent _ d, fl, rem => by simpa only [scan, Doc.upto] using scan_upto d fl rem
  | .dedent _ d, fl, rem => by simpa only [scan, Doc.upto] using scan_upto d fl rem
  | .concat ds, fl, rem => by simpa only [scan, Doc.upto] using scans_upto ds fl rem
  | .choice x y, fl, rem => by
      cases fl
      · simpa [scan, Doc.upto] using scan_upto y false rem
      · simpa [scan, Doc.upto] using scan_upto x true rem
theorem scans_upto : ∀ (ds : List Doc) (fl : Bool) (rem : Nat), scans false ds fl rem = Scan.ofUpto (Doc.uptos ds fl) rem
  | [], fl, rem => by simp [scans, Doc.uptos, Scan.ofUpto]
  | d :: ds, fl, rem => by
      simp only [scans, Doc.uptos, Scan.ofUpto_seq, scan_upto d fl rem]
      cases Scan.ofUpto (d.upto fl) rem with
      | stop b => rfl
      | cont r => exact scans_upto ds fl r
end

theorem scanChunks_upto (cs : List Chunk) (rem : Nat) :
    scanChunks false cs rem = Scan.ofUpto (chunksUpto cs) rem := by
  induction cs generalizing rem with
  | nil => simp [scanChunks, chunksUpto, Scan.ofUpto]
  | cons c cs ih =>
    simp only [scanChunks, chunksUpto, Scan.ofUpto_seq, scan_upto]
    cases Scan.ofUpto (c.doc.upto c.flat) rem <;> simp [ih]

theorem chunksUpto_answer (cs : List Chunk) (rem : Nat) :
    (scanChunks false cs rem).answer = decide ((chunksUpto cs).1 ≤ rem) := by
  rw [scanChunks_upto]
  simp only [Scan.ofUpto]
  split
  · next h => split <;> simp [Scan.answer, h]
  · next h => simp [Scan.answer, h]

mutual
/-- A document with a flat text scans, in flat mode, to exactly its width. -/
theorem scan_flatText (wg : Bool) : ∀ (d : Doc) (t : Str) (rem : Nat), d.WidthOk → d.flatText = some t →
    scan wg d true rem = if byteLen t ≤ rem then .cont (rem - byteLen t) else .stop false
  | .newline, t, rem, _, h | .newlineWithNoIndent, t, rem, _, h | .forceBreak, t, rem, _, h => by simp [Doc.flatText] at h
  | .softline, t, rem, _, h => by
      simp [Doc.flatText] at h; subst h
      have : byteLen [' '] = 1 := by decide
      simp [scan, this]
  | .maybeline, t, rem, _, h => by
      simp [Doc.flatText] at h; subst h; simp [scan]
  | .text s n, t, rem, hw, h => by
      simp [Doc.flatText] at h; subst h
      have : n = byteLen s := hw
      simp [scan, this]
  | .flat d, t, rem, hw, h => by simpa only [scan] using scan_flatText wg d t rem hw (by simpa [Doc.flatText] using h)
  | .indent _ d, t, rem, hw, h => by simpa only [scan] using scan_flatText wg d t rem hw (by simpa [Doc.flatText] using h)
  | .dedent _ d, t, rem, hw, h => by simpa only [scan] using scan_flatText wg d t rem hw (by simpa [Doc.flatText] using h)
  | .concat ds, t, rem, hw, h => by simpa only [scan] using scans_flatText wg ds t rem hw (by simpa [Doc.flatText] using h)
  | .choice x y, t, rem, hw, h => by
      simpa only [scan, if_true] using scan_flatText wg x t rem hw.1 (by simpa [Doc.flatText] using h)
theorem scans_flatText (wg : Bool) : ∀ (ds : List Doc) (t : Str) (rem : Nat),
    Doc.AllTexts (fun s n => n = byteLen s) ds → Doc.flatTexts ds = some t →
    scans wg ds true rem = if byteLen t ≤ rem then .cont (rem - byteLen t) else .stop false
  | [], t, rem, _, h => by simp [Doc.flatTexts] at h; subst h; simp [scans]
  | d :: ds, t, rem, hw, h => by
      simp only [Doc.flatTexts] at h
      cases h1 : d.flatText with
      | none => simp [h1] at h
      | some a =>
        cases h2 : Doc.flatTexts ds with
        | none => simp [h1, h2] at h
        | some b =>
          simp [h1, h2] at h
          subst h
          simp only [scans, scan_flatText wg d a rem hw.1 h1, byteLen_append]
          by_cases ha : byteLen a ≤ rem
          · simp only [ha, if_true, scans_flatText wg ds b _ hw.2 h2]
            by_cases hb : byteLen b ≤ rem - byteLen a
            · have : byteLen a + byteLen b ≤ rem := by omega
              simp [hb, this]; omega
            · have : ¬ (byteLen a + byteLen b ≤ rem) := by omega
              simp [hb, this]
          · have : ¬ (byteLen a + byteLen b ≤ rem) := by omega
            simp [ha, this]
end

/-- Appending a text to a state. -/
def PSt.add (st : PSt) (t : Str) : PSt := { st with out := st.out ++ t, col := st.col + byteLen t }

theorem PSt.add_nil (st : PSt) : st.add [] = st := by simp [PSt.add]
theorem PSt.add_add (st : PSt) (a b : Str) : (st.add a).add b = st.add (a ++ b) := by
  simp [PSt.add]; omega

mutual
/-- Printing such a document in flat mode appends exactly its flat text. -/
theorem pr_flatText (w : Nat) : ∀ (d : Doc) (t : Str) (i : Nat) (rest : List Chunk) (st : PSt),
    d.AllText (fun s n => n = byteLen s ∧ s ≠ [' ']) → d.flatText = some t → st.pend = none →
    pr w d i true rest st = st.add t
  | .newline, t, i, rest, st, _, h, _ | .newlineWithNoIndent, t, i, rest, st, _, h, _
  | .forceBreak, t, i, rest, st, _, h, _ => by simp [Doc.flatText] at h
  | .softline, t, i, rest, st, _, h, hp => by
      simp [Doc.flatText] at h; subst h
      have : byteLen [' '] = 1 := by decide
      simp [pr, PSt.putSpace, PSt.add, this]
  | .maybeline, t, i, rest, st, _, h, hp => by
      simp [Doc.flatText] at h; subst h; simp [pr, PSt.add_nil]
  | .text s n, t, i, rest, st, hw, h, hp => by
      simp [Doc.flatText] at h; subst h
      obtain ⟨h1, h2⟩ := hw
      simp [pr, PSt.flush_of_none hp, PSt.putText, h2, PSt.add, h1]
  | .flat d, t, i, rest, st, hw, h, hp => by
      simpa only [pr] using pr_flatText w d t i rest st hw (by simpa [Doc.flatText] using h) hp
  | .indent _ d, t, i, rest, st, hw, h, hp => by
      simpa only [pr] using pr_flatText w d t _ rest st hw (by simpa [Doc.flatText] using h) hp
  | .dedent _ d, t, i, rest, st, hw, h, hp => by
      simpa only [pr] using pr_flatText w d t _ rest st hw (by simpa [Doc.flatText] using h) hp
  | .concat ds, t, i, rest, st, hw, h, hp => by
      simpa only [pr] using prs_flatText w ds t i rest st hw (by simpa [Doc.flatText] using h) hp
  | .choice x y, t, i, rest, st, hw, h, hp => by
      simp only [pr, if_true, PSt.flush_of_none hp]
      exact pr_flatText w x t i rest st hw.1 (by simpa [Doc.flatText] using h) hp
theorem prs_flatText (w : Nat) : ∀ (ds : List Doc) (t : Str) (i : Nat) (rest : List Chunk) (st : PSt),
    Doc.AllTexts (fun s n => n = byteLen s ∧ s ≠ [' ']) ds → Doc.flatTexts ds = some t → st.pend = none →
    prs w ds i true rest st = st.add t
  | [], t, i, rest, st, _, h, _ => by simp [Doc.flatTexts] at h; subst h; simp [prs, PSt.add_nil]
  | d :: ds, t, i, rest, st, hw, h, hp => by
      simp only [Doc.flatTexts] at h
      cases h1 : d.flatText with
      | none => simp [h1] at h
      | some a =>
        cases h2 : Doc.flatTexts ds with
        | none => simp [h1, h2] at h
        | some b =>
          simp [h1, h2] at h
          subst h
          rw [prs, pr_flatText w d a i _ st hw.1 h1 hp, prs_flatText w ds b i rest (st.add a) hw.2 h2 hp, PSt.add_add]
end

/-! ### Forced breaks -/

/-- Which kind of mandatory break comes first in a document read in flat mode. -/
inductive FirstBreak where
  | none    -- no mandatory break at all
  | forced  -- a forced break (`ForceBreak`)
  | hard    -- a hard newline

def FirstBreak.orElse : FirstBreak → FirstBreak → FirstBreak
  | .none, b => b
  | a, _ => a

mutual
def Doc.firstBreak : Doc → FirstBreak
  | .newline => .hard
  | .newlineWithNoIndent => .hard
  | .forceBreak => .forced
  | .flat d => d.firstBreak
  | .indent _ d => d.firstBreak
  | .dedent _ d => d.firstBreak
  | .concat ds => Doc.firstBreaks ds
  | .choice x _ => x.firstBreak
  | _ => .none
def Doc.firstBreaks : List Doc → FirstBreak
  | [] => .none
  | d :: ds => d.firstBreak.orElse (Doc.firstBreaks ds)
end

/-- What the look-ahead inside the group may answer, given the first mandatory break. -/
def FirstBreak.Allows : FirstBreak → Scan → Prop
  | .none, .stop b => b = false
  | .none, .cont _ => True
  | .forced, s => s = .stop false
  | .hard, .stop _ => True
  | .hard, .cont _ => False

mutual
theorem scan_firstBreak : ∀ (d : Doc) (rem : Nat), d.firstBreak.Allows (scan true d true rem)
  | .newline, rem => by simp [scan, Doc.firstBreak, FirstBreak.Allows]
  | .newlineWithNoIndent, rem => by simp [scan, Doc.firstBreak, FirstBreak.Allows]
  | .forceBreak, rem => by simp [scan, Doc.firstBreak, FirstBreak.Allows]
  | .softline, rem => by by_cases h : 1 ≤ rem <;> simp [scan, Doc.firstBreak, h, FirstBreak.Allows]
  | .maybeline, rem => by simp [scan, Doc.firstBreak, FirstBreak.Allows]
  | .text s n, rem => by by_cases h : n ≤ rem <;> simp [scan, Doc.firstBreak, h, FirstBreak.Allows]
  | .flat d, rem => by simpa only [scan, Doc.firstBreak] using scan_firstBreak d rem
  | .indent _ d, rem => by simpa only [scan, Doc.firstBreak] using scan_firstBreak d rem
  | .dedent _ d, rem => by simpa only [scan, Doc.firstBreak] using scan_firstBreak d rem
  | .concat ds, rem => by simpa only [scan, Doc.firstBreak] using scans_firstBreak ds rem
  | .choice x y, rem => by simpa only [scan, Doc.firstBreak, if_true] using scan_firstBreak x rem
theorem scans_firstBreak : ∀ (ds : List Doc) (rem : Nat), (Doc.firstBreaks ds).Allows (scans true ds true rem)
  | [], rem => by simp [scans, Doc.firstBreaks, FirstBreak.Allows]
  | d :: ds, rem => by
      have h1 := scan_firstBreak d rem
      simp only [scans, Doc.firstBreaks]
      cases hd : d.firstBreak <;> rw [hd] at h1 <;> cases hs : scan true d true rem <;> rw [hs] at h1 <;>
        simp only [FirstBreak.Allows, FirstBreak.orElse] at h1 ⊢
      · subst h1
        cases Doc.firstBreaks ds <;> simp [FirstBreak.Allows]
      · exact scans_firstBreak ds _
      · simpa using h1
      · simp at h1
end

mutual
/-- The document with all forced breaks removed. -/
def Doc.eraseForce : Doc → Doc
  | .forceBreak => .concat []
  | .flat d => .flat d.eraseForce
  | .indent n d => .indent n d.eraseForce
  | .dedent n d => .dedent n d.eraseForce
  | .concat ds => .concat (Doc.eraseForces ds)
  | .choice x y => .choice x.eraseForce y.eraseForce
  | d => d
def Doc.eraseForces : List Doc → List Doc
  | [] => []
  | d :: ds => d.eraseForce :: Doc.eraseForces ds
end

mutual
theorem upto_eraseForce : ∀ (d : Doc) (fl : Bool), d.eraseForce.upto fl = d.upto fl
  | .newline, fl | .newlineWithNoIndent, fl | .softline, fl | .maybeline, fl | .text .., fl => rfl
  | .forceBreak, fl => by simp [Doc.eraseForce, Doc.upto, Doc.uptos]
  | .flat d, fl => by simpa only [Doc.eraseForce, Doc.upto] using upto_eraseForce d true
  | .indent _ d, fl => by simpa only [Doc.eraseForce, Doc.upto] using upto_eraseForce d fl
  | .dedent _ d, fl => by simpa only [Doc.eraseForce, Doc.upto] using upto_eraseForce d fl
  | .concat ds, fl => by simpa only [Doc.eraseForce, Doc.upto] using uptos_eraseForce ds fl
  | .choice x y, fl => by simp only [Doc.eraseForce, Doc.upto, upto_eraseForce x, upto_eraseForce y]
theorem uptos_eraseForce : ∀ (ds : List Doc) (fl : Bool), Doc.uptos (Doc.eraseForces ds) fl = Doc.uptos ds fl
  | [], fl => rfl
  | d :: ds, fl => by simp only [Doc.eraseForces, Doc.uptos, upto_eraseForce d, uptos_eraseForce ds]
end

/-- Remove forced breaks from a chunk. -/
def Chunk.eraseForce (c : Chunk) : Chunk := { c with doc := c.doc.eraseForce }

theorem chunksUpto_eraseForce (cs : List Chunk) : chunksUpto (cs.map Chunk.eraseForce) = chunksUpto cs := by
  induction cs with
  | nil => rfl
  | cons c cs ih => simp only [List.map_cons, chunksUpto, ih, Chunk.eraseForce, upto_eraseForce]

end Afmt
