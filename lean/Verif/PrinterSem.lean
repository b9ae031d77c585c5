import Verif.Doc

/-!
# Structural semantics of the pretty printer

A compositional description of what the work-list loops of `Verif.Doc` compute, and the proof that the loops refine it
(in particular that they terminate within the fuel given).
-/

namespace Afmt

/-- Result of scanning a document during look-ahead: answer found, or continue with the remaining width. -/
inductive Scan where
  | stop (b : Bool)
  | cont (rem : Nat)
  deriving DecidableEq, Repr

mutual
/-- Structural version of the look-ahead over one document. -/
def scan (wg : Bool) : Doc → Bool → Nat → Scan
  | .newline, _, _ => .stop true
  | .newlineWithNoIndent, _, _ => .stop true
  | .forceBreak, _, rem => if wg then .stop false else .cont rem
  | .softline, fl, rem => if fl then (if 1 ≤ rem then .cont (rem - 1) else .stop false) else .stop true
  | .maybeline, fl, rem => if fl then .cont rem else .stop true
  | .text _ width, _, rem => if width ≤ rem then .cont (rem - width) else .stop false
  | .flat d, _, rem => scan wg d true rem
  | .indent _ d, fl, rem => scan wg d fl rem
  | .dedent _ d, fl, rem => scan wg d fl rem
  | .concat ds, fl, rem => scans wg ds fl rem
  | .choice x y, fl, rem => if fl then scan wg x fl rem else scan wg y fl rem
def scans (wg : Bool) : List Doc → Bool → Nat → Scan
  | [], _, rem => .cont rem
  | d :: ds, fl, rem =>
    match scan wg d fl rem with
    | .stop b => .stop b
    | .cont r => scans wg ds fl r
end

/-- Scan of a list of chunks. -/
def scanChunks (wg : Bool) : List Chunk → Nat → Scan
  | [], rem => .cont rem
  | c :: cs, rem =>
    match scan wg c.doc c.flat rem with
    | .stop b => .stop b
    | .cont r => scanChunks wg cs r

/-- Final answer of a scan: reaching the end of the document counts as fitting. -/
def Scan.answer : Scan → Bool
  | .stop b => b
  | .cont _ => true

/-- Structural version of `fits`. -/
def fitsS (rem : Nat) (c : Chunk) (rest : List Chunk) : Bool :=
  match scan true c.doc c.flat rem with
  | .stop b => b
  | .cont r => (scanChunks false rest r).answer

theorem Doc.cost_pos : ∀ d : Doc, 1 ≤ d.cost
  | .newline | .newlineWithNoIndent | .forceBreak | .text .. | .softline | .maybeline => by simp [Doc.cost]
  | .flat _ | .indent .. | .dedent .. | .concat _ | .choice .. => by simp [Doc.cost]

theorem chunksCost_append (a b : List Chunk) : chunksCost (a ++ b) = chunksCost a + chunksCost b := by
  induction a with
  | nil => simp [chunksCost]
  | cons c cs ih => simp [chunksCost, ih]; omega

theorem chunksCost_map (ds : List Doc) (i : Nat) (fl : Bool) :
    chunksCost (ds.map (fun d => { doc := d, indent := i, flat := fl })) = Doc.costs ds := by
  induction ds with
  | nil => simp [chunksCost, Doc.costs]
  | cons c cs ih => simp [chunksCost, Doc.costs, ih]

theorem scanChunks_append (wg : Bool) (a b : List Chunk) (rem : Nat) :
    scanChunks wg (a ++ b) rem =
      match scanChunks wg a rem with
      | .stop b => .stop b
      | .cont r => scanChunks wg b r := by
  induction a generalizing rem with
  | nil => simp [scanChunks]
  | cons c cs ih =>
    simp only [List.cons_append, scanChunks]
    cases scan wg c.doc c.flat rem <;> simp [ih]

theorem scanChunks_map (wg : Bool) (ds : List Doc) (i : Nat) (fl : Bool) (rem : Nat) :
    scanChunks wg (ds.map (fun d => { doc := d, indent := i, flat := fl })) rem = scans wg ds fl rem := by
  induction ds generalizing rem with
  | nil => simp [scanChunks, scans]
  | cons d ds ih =>
    simp only [List.map_cons, scanChunks, scans]
    cases scan wg d fl rem <;> simp [ih]

/-- What the look-ahead loop answers from local stack `stack` and outer chunks `rest`. -/
def fitsFrom (rem : Nat) (stack rest : List Chunk) (wg : Bool) : Bool :=
  match scanChunks wg stack rem with
  | .stop b => b
  | .cont r => (scanChunks false rest r).answer

theorem fitsFrom_cons (rem : Nat) (c : Chunk) (stack rest : List Chunk) (wg : Bool) :
    fitsFrom rem (c :: stack) rest wg =
      match scan wg c.doc c.flat rem with
      | .stop b => b
      | .cont r => fitsFrom r stack rest wg := by
  simp only [fitsFrom, scanChunks]
  cases scan wg c.doc c.flat rem <;> rfl

theorem fitsFrom_nil_cons (rem : Nat) (c : Chunk) (rest : List Chunk) (wg : Bool) :
    fitsFrom rem [] (c :: rest) wg = fitsFrom rem [c] rest false := by
  simp only [fitsFrom, scanChunks]
  cases scan false c.doc c.flat rem <;> rfl

theorem fitsFrom_map (rem : Nat) (ds : List Doc) (i : Nat) (fl : Bool) (stack rest : List Chunk) (wg : Bool) :
    fitsFrom rem (ds.map (fun d => { doc := d, indent := i, flat := fl }) ++ stack) rest wg =
      fitsFrom rem ({ doc := .concat ds, indent := i, flat := fl } :: stack) rest wg := by
  simp only [fitsFrom, scanChunks_append, scanChunks_map, scanChunks, scan]

/-- The look-ahead loop computes the structural scan, for every amount of fuel above the cost. -/
theorem fitsLoop_eq (fuel : Nat) : ∀ (rem : Nat) (stack rest : List Chunk) (wg : Bool),
    chunksCost stack + chunksCost rest < fuel →
    fitsLoop fuel rem stack rest wg = some (fitsFrom rem stack rest wg) := by
  induction fuel with
  | zero => intro _ _ _ _ h; omega
  | succ fuel ih =>
    intro rem stack rest wg h
    -- one iteration on a chunk `c`
    have key : ∀ (c : Chunk) (stack rest : List Chunk) (wg : Bool),
        chunksCost (c :: stack) + chunksCost rest < fuel + 1 →
        fitsLoop (fuel + 1) rem (c :: stack) rest wg = some (fitsFrom rem (c :: stack) rest wg) := by
      intro c stack rest wg h
      obtain ⟨d, i, fl⟩ := c
      have hd := Doc.cost_pos d
      cases d <;> simp only [chunksCost, Doc.cost] at h <;>
        simp only [fitsLoop, fitsFrom_cons, scan]
      case forceBreak => cases wg <;> simp <;> (rw [ih]; omega)
      case text s width => 
        split
        · rw [ih]; omega
        · rfl
      case softline =>
        cases fl <;> simp
        split
        · rw [ih]; omega
        · rfl
      case maybeline => cases fl <;> simp <;> (rw [ih]; omega)
      case flat d => rw [ih, fitsFrom_cons]; simp only [chunksCost]; omega
      case indent n d => rw [ih, fitsFrom_cons]; simp only [chunksCost]; omega
      case dedent n d => rw [ih, fitsFrom_cons]; simp only [chunksCost]; omega
      case concat ds =>
        rw [ih, fitsFrom_map, fitsFrom_cons]
        · simp [scan]
        · simp only [chunksCost_append, chunksCost_map]; omega
      case choice x y =>
        cases fl <;> simp <;> (rw [ih, fitsFrom_cons]; simp only [chunksCost]; omega)
    match stack, rest with
    | c :: stack, rest => exact key c stack rest wg h
    | [], c :: rest =>
      have hk := key c [] rest false (by simp only [chunksCost] at *; omega)
      rw [fitsFrom_nil_cons, ← hk]
      simp only [fitsLoop]
    | [], [] => simp [fitsLoop, fitsFrom, scanChunks, Scan.answer]

/-- `fits` always answers, and answers what the structural scan says. -/
theorem fits_eq (w col : Nat) (c : Chunk) (rest : List Chunk) :
    fits w col c rest = some (fitsS (w - col) c rest) := by
  rw [fits, fitsLoop_eq]
  · simp only [fitsS, fitsFrom, scanChunks]
    cases scan true c.doc c.flat (w - col) <;> rfl
  · simp only [chunksCost]; omega

mutual
/-- Structural version of the printing loop: print document `d` in a given mode; `rest` is what comes afterwards (only
inspected by look-ahead). -/
def pr (w : Nat) : Doc → Nat → Bool → List Chunk → PSt → PSt
  | .newline, i, _, _, st => { st with pend := some i }
  | .newlineWithNoIndent, _, _, _, st => st.bareNewline
  | .softline, i, fl, _, st => if fl then st.putSpace else { st with pend := some i }
  | .maybeline, i, fl, _, st => if fl then st else { st with pend := some i }
  | .forceBreak, _, _, _, st => st
  | .text s width, _, _, _, st => st.flush.putText s width
  | .flat d, i, _, rest, st => pr w d i true rest st
  | .indent n d, i, fl, rest, st => pr w d (i + n) fl rest st
  | .dedent n d, i, fl, rest, st => pr w d (i - n) fl rest st
  | .concat ds, i, fl, rest, st => prs w ds i fl rest st
  | .choice x y, i, fl, rest, st =>
    if fl then pr w x i fl rest st.flush
    else if fitsS (w - st.flush.col) { doc := x, indent := i, flat := fl } rest then pr w x i fl rest st.flush
    else pr w y i fl rest st.flush
def prs (w : Nat) : List Doc → Nat → Bool → List Chunk → PSt → PSt
  | [], _, _, _, st => st
  | d :: ds, i, fl, rest, st =>
    prs w ds i fl rest (pr w d i fl (ds.map (fun d => { doc := d, indent := i, flat := fl }) ++ rest) st)
end

/-- Print a list of chunks. -/
def prChunks (w : Nat) : List Chunk → PSt → PSt
  | [], st => st
  | c :: cs, st => prChunks w cs (pr w c.doc c.indent c.flat cs st)

theorem prChunks_map (w : Nat) (ds : List Doc) (i : Nat) (fl : Bool) (rest : List Chunk) (st : PSt) :
    prChunks w (ds.map (fun d => { doc := d, indent := i, flat := fl }) ++ rest) st =
      prChunks w rest (prs w ds i fl rest st) := by
  induction ds generalizing st with
  | nil => simp [prs]
  | cons d ds ih => simp only [List.map_cons, List.cons_append, prChunks, prs, ih]

/-- The printing loop computes the structural semantics, for every amount of fuel at least the cost. -/
theorem printLoop_eq (w fuel : Nat) : ∀ (cs : List Chunk) (st : PSt), chunksCost cs ≤ fuel →
    printLoop w fuel cs st = some (prChunks w cs st) := by
  induction fuel with
  | zero =>
    intro cs st h
    match cs with
    | [] => rfl
    | c :: cs => have := Doc.cost_pos c.doc; simp only [chunksCost] at h; omega
  | succ fuel ih =>
    intro cs st h
    match cs with
    | [] => rfl
    | c :: rest =>
      obtain ⟨d, i, fl⟩ := c
      have hd := Doc.cost_pos d
      cases d <;> simp only [chunksCost, Doc.cost] at h <;> simp only [printLoop, printStep, prChunks, pr]
      case newline => rw [ih]; omega
      case newlineWithNoIndent => rw [ih]; omega
      case forceBreak => rw [ih]; omega
      case text s width => rw [ih]; omega
      case softline => cases fl <;> simp <;> (rw [ih]; omega)
      case maybeline => cases fl <;> simp <;> (rw [ih]; omega)
      case flat d => rw [ih]; · simp [prChunks]
                     simp only [chunksCost]; omega
      case indent n d => rw [ih]; · simp [prChunks]
                         simp only [chunksCost]; omega
      case dedent n d => rw [ih]; · simp [prChunks]
                         simp only [chunksCost]; omega
      case concat ds =>
        rw [ih, prChunks_map]
        simp only [chunksCost_append, chunksCost_map]; omega
      case choice x y =>
        cases fl
        · simp only [Bool.false_eq_true, if_false, fits_eq]
          cases hf : fitsS (w - st.flush.col) { doc := x, indent := i, flat := false } rest
          · simp only [Bool.false_eq_true, if_false]
            rw [ih]; · simp [prChunks]
            simp only [chunksCost]; omega
          · simp only [if_true]
            rw [ih]; · simp [prChunks]
            simp only [chunksCost]; omega
        · simp only [if_true]
          rw [ih]; · simp [prChunks]
          simp only [chunksCost]; omega

/-- The printed text as a plain function of width and document. -/
def layout (w : Nat) (d : Doc) : Str := (pr w d 0 false [] PSt.init).flush.out

/-- `pretty_print` terminates and equals the structural layout. -/
theorem prettyPrint_eq (w : Nat) (d : Doc) : prettyPrint w d = some (layout w d) := by
  simp only [prettyPrint]
  rw [printLoop_eq]
  · simp [prChunks, layout]
  · simp [chunksCost]

end Afmt
