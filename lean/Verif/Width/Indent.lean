import Verif.Width.Settle
import Verif.Prog
import Verif.FormatLemmas

/-!
# The indentation size at great widths

If lines may be arbitrarily long, the document and what the printer does depend on the indentation size only through the
numbers of blanks at the beginnings of lines.
-/

namespace Afmt
namespace Width

/-! ### Scaled documents -/

mutual
/-- The document with its indentations multiplied by `k`. -/
def scale (k : Nat) : Doc → Doc
  | .flat d => .flat (scale k d)
  | .indent n d => .indent (k * n) (scale k d)
  | .dedent n d => .dedent (k * n) (scale k d)
  | .concat ds => .concat (scales k ds)
  | .choice x y => .choice (scale k x) (scale k y)
  | .newline => .newline
  | .newlineWithNoIndent => .newlineWithNoIndent
  | .softline => .softline
  | .maybeline => .maybeline
  | .forceBreak => .forceBreak
  | .text s n => .text s n
def scales (k : Nat) : List Doc → List Doc
  | [] => []
  | d :: ds => scale k d :: scales k ds
end

/-- Chunks with scaled documents and indentations. -/
def scaleC (k : Nat) (c : Chunk) : Chunk := { doc := scale k c.doc, indent := k * c.indent, flat := c.flat }

mutual
theorem scan_scale (k : Nat) (wg : Bool) : ∀ (d : Doc) (fl : Bool) (r : Nat), scan wg (scale k d) fl r = scan wg d fl r
  | .newline, _, _ | .newlineWithNoIndent, _, _ | .softline, _, _ | .maybeline, _, _ | .forceBreak, _, _ | .text _ _, _, _ => by
    rw [scale]
  | .flat d, fl, r => by rw [scale, scan, scan, scan_scale k wg d]
  | .indent n d, fl, r => by rw [scale, scan, scan, scan_scale k wg d]
  | .dedent n d, fl, r => by rw [scale, scan, scan, scan_scale k wg d]
  | .concat ds, fl, r => by rw [scale, scan, scan, scans_scale k wg ds]
  | .choice x y, fl, r => by rw [scale, scan, scan, scan_scale k wg x, scan_scale k wg y]
theorem scans_scale (k : Nat) (wg : Bool) : ∀ (ds : List Doc) (fl : Bool) (r : Nat), scans wg (scales k ds) fl r = scans wg ds fl r
  | [], fl, r => by rw [scales]
  | d :: ds, fl, r => by
    rw [scales, scans, scans, scan_scale k wg d]
    cases scan wg d fl r with
    | stop b => rfl
    | cont r' => exact scans_scale k wg ds fl r'
end

theorem scanChunks_scale (k : Nat) (wg : Bool) : ∀ (cs : List Chunk) (r : Nat), scanChunks wg (cs.map (scaleC k)) r = scanChunks wg cs r
  | [], r => rfl
  | c :: cs, r => by
    rw [List.map_cons, scanChunks, scanChunks]
    show (match scan wg (scale k c.doc) c.flat r with | .stop b => _ | .cont r => _) = _
    rw [scan_scale]
    cases scan wg c.doc c.flat r with
    | stop b => rfl
    | cont r' => exact scanChunks_scale k wg cs r'

theorem fitsS_scale (k r : Nat) (d : Doc) (i j : Nat) (fl : Bool) (rest : List Chunk) :
    fitsS r { doc := scale k d, indent := j, flat := fl } (rest.map (scaleC k)) = fitsS r { doc := d, indent := i, flat := fl } rest := by
  unfold fitsS
  show (match scan true (scale k d) fl r with | .stop b => _ | .cont r => _) = (match scan true d fl r with | .stop b => _ | .cont r => _)
  rw [scan_scale]
  cases scan true d fl r with
  | stop b => rfl
  | cont r' => show (scanChunks _ _ _).answer = _; rw [scanChunks_scale]

/-- The operation with its indentation multiplied. -/
def scaleO (k : Nat) : Op → Op
  | .pend i => .pend (k * i)
  | o => o

theorem scales_map (k : Nat) (i : Nat) (fl : Bool) : ∀ (ds : List Doc),
    (scales k ds).map (fun d => { doc := d, indent := k * i, flat := fl : Chunk }) =
      (ds.map (fun d => { doc := d, indent := i, flat := fl : Chunk })).map (scaleC k)
  | [] => rfl
  | d :: ds => by rw [scales, List.map_cons, scales_map k i fl ds]; rfl

mutual
theorem trI_scale (k : Nat) : ∀ (d : Doc) (i : Nat) (fl : Bool) (rest : List Chunk),
    trI (scale k d) (k * i) fl (rest.map (scaleC k)) = (trI d i fl rest).map (scaleO k)
  | .newline, i, fl, rest => by simp [scale, trI, scaleO]
  | .newlineWithNoIndent, i, fl, rest => by simp [scale, trI, scaleO]
  | .softline, i, fl, rest => by cases fl <;> simp [scale, trI, scaleO]
  | .maybeline, i, fl, rest => by cases fl <;> simp [scale, trI, scaleO]
  | .forceBreak, i, fl, rest => by simp [scale, trI]
  | .text s n, i, fl, rest => by simp [scale, trI, scaleO]
  | .flat d, i, fl, rest => by rw [scale, trI, trI, trI_scale k d]
  | .indent n d, i, fl, rest => by rw [scale, trI, trI, ← Nat.mul_add, trI_scale k d]
  | .dedent n d, i, fl, rest => by rw [scale, trI, trI, ← Nat.mul_sub, trI_scale k d]
  | .concat ds, i, fl, rest => by rw [scale, trI, trI, trIs_scale k ds]
  | .choice x y, i, fl, rest => by
    rw [scale, trI, trI, List.map_cons, trI_scale k x, trI_scale k y]
    have e : (∃ r, fitsS r { doc := scale k x, indent := k * i, flat := fl } (rest.map (scaleC k)) = true) ↔
        ∃ r, fitsS r { doc := x, indent := i, flat := fl } rest = true := by
      constructor <;> rintro ⟨r, h⟩ <;> refine ⟨r, ?_⟩
      · rwa [fitsS_scale k r x i] at h
      · rwa [fitsS_scale k r x i]
    cases fl with
    | true => simp [scaleO]
    | false =>
      simp only [Bool.false_eq_true, if_false, scaleO]
      by_cases h : ∃ r, fitsS r { doc := x, indent := i, flat := false } rest = true
      · rw [if_pos h, if_pos (e.2 h)]
      · rw [if_neg h, if_neg (fun h' => h (e.1 h'))]
theorem trIs_scale (k : Nat) : ∀ (ds : List Doc) (i : Nat) (fl : Bool) (rest : List Chunk),
    trIs (scales k ds) (k * i) fl (rest.map (scaleC k)) = (trIs ds i fl rest).map (scaleO k)
  | [], i, fl, rest => by rw [scales, trIs, trIs]; rfl
  | d :: ds, i, fl, rest => by
    rw [scales, trIs, trIs, List.map_append, scales_map, ← List.map_append, trI_scale k d, trIs_scale k ds]
end

/-! ### Programs -/

theorem scales_append (k : Nat) : ∀ (a b : List Doc), scales k (a ++ b) = scales k a ++ scales k b
  | [], b => by rw [scales]; rfl
  | d :: a, b => by rw [List.cons_append, scales, scales, scales_append k a b]; rfl

theorem scales_lines (k : Nat) : ∀ (ls : List Str), scales k (linesDoc ls) = linesDoc ls
  | [] => by rw [linesDoc, scales]
  | [l] => by simp [linesDoc, scales, scale, txt]
  | l :: l' :: ls => by
    have := scales_lines k (l' :: ls)
    simp [linesDoc, scales, scale, txt, nl] at this ⊢
    exact this

theorem scale_comment (k : Nat) (c : Comment) : scale k c.build = c.build := by
  unfold Comment.build
  cases c.type with
  | line => simp [scale, scales, txt, nl]
  | block => simp [scale, scales_lines]

theorem scale_sep (k : Nat) (b : Bool) : scale k (if b then emptyNewLine else nl) = if b then emptyNewLine else nl := by
  cases b <;> simp [emptyNewLine, nl, scale, scales]

theorem scales_post (k : Nat) : ∀ (cs : List Comment), scales k (postDocs cs) = postDocs cs
  | [] => by rw [postDocs, scales]
  | c :: cs => by
    have h1 : scale k (postLead c) = postLead c := by
      unfold postLead
      split
      · simp [scale, txt]
      · split <;> simp [emptyNewLine, nl, scale, scales]
    have h2 : scales k (postTrail c) = postTrail c := by
      unfold postTrail
      split <;> simp [scale, scales, txt]
    rw [postDocs, scales, scales, scales_append, h1, h2, scale_comment, scales_post k cs]

theorem scales_pre (k : Nat) : ∀ (cs : List Comment) (f : Bool), scales k (preDocs f cs) = preDocs f cs
  | [], f => by rw [preDocs, scales]
  | c :: cs, f => by
    rw [preDocs, scales_append, scales_append, scales_append, scales_pre k cs]
    congr 1
    congr 1
    · congr 1
      · split
        · simp [scale, scales, txt]
        · cases f
          · simp only [Bool.false_eq_true, if_false]
            split <;> simp [scale, scales, emptyNewLine, nl]
          · simp [scale, scales]
      · simp [scales, scale_comment]
    · split
      · simp [scale, scales, txt]
      · split
        · split <;> simp [scale, scales, emptyNewLine, nl]
        · simp [scales]

theorem scales_dangling (k : Nat) : ∀ (cs : List Comment), scales k (danglingDocs cs) = danglingDocs cs
  | [] => by rw [danglingDocs, scales]
  | c :: cs => by
    rw [danglingDocs, scales_append, scales_append, scales_dangling k cs]
    congr 1
    congr 1
    · split
      · simp [scale, scales, txt]
      · split
        · simp [scale, scales, emptyNewLine, nl]
        · split <;> simp [scale, scales, nl]
    · simp [scales, scale_comment]

theorem scales_comments (k : Nat) : ∀ (cs : List Comment), scales k (cs.map Comment.build) = cs.map Comment.build
  | [] => by rw [List.map_nil, scales]
  | c :: cs => by rw [List.map_cons, scales, scale_comment, scales_comments k cs]

mutual
/-- The document with indentation size `k` is the one with indentation size 1, scaled. -/
theorem build_scale (k : Nat) (cm : CMap) : ∀ (p : Prog) (d : Doc) (l : List Comment), Prog.build 1 cm p = .ok (d, l) →
    Prog.build k cm p = .ok (scale k d, l)
  | .txt s, d, l, h => by rw [Prog.build] at *; cases h; simp [txt, scale]
  | .nl, d, l, h => by rw [Prog.build] at *; cases h; simp [nl, scale]
  | .softline, d, l, h => by rw [Prog.build] at *; cases h; simp [scale]
  | .maybeline, d, l, h => by rw [Prog.build] at *; cases h; simp [scale]
  | .forceBreak, d, l, h => by rw [Prog.build] at *; cases h; simp [scale]
  | .sep b, d, l, h => by rw [Prog.build] at *; cases h; rw [scale_sep]
  | .concat ps, d, l, h => by
    rw [Prog.build] at *
    cases hb : Prog.builds 1 cm ps with
    | error e => rw [hb] at h; cases h
    | ok a => rw [hb] at h; cases h; rw [builds_scale k cm ps a.1 a.2 hb]; simp only [scale]
  | .group p, d, l, h => by
    rw [Prog.build] at *
    cases hb : Prog.build 1 cm p with
    | error e => rw [hb] at h; cases h
    | ok a => rw [hb] at h; cases h; rw [build_scale k cm p a.1 a.2 hb]; simp only [group, scale]
  | .indent p, d, l, h => by
    rw [Prog.build] at *
    cases hb : Prog.build 1 cm p with
    | error e => rw [hb] at h; cases h
    | ok a => rw [hb] at h; cases h; rw [build_scale k cm p a.1 a.2 hb]; simp only [indentDoc, scale, Nat.mul_one]
  | .dedent p, d, l, h => by
    rw [Prog.build] at *
    cases hb : Prog.build 1 cm p with
    | error e => rw [hb] at h; cases h
    | ok a => rw [hb] at h; cases h; rw [build_scale k cm p a.1 a.2 hb]; simp only [dedentDoc, scale, Nat.mul_one]
  | .pre id, d, l, h => by
    rw [Prog.build] at *
    cases hb : getBucket cm id with
    | error e => rw [hb] at h; cases h
    | ok b => rw [hb] at h; cases h; simp only [scale, scales_pre]
  | .post id, d, l, h => by
    rw [Prog.build] at *
    cases hb : getBucket cm id with
    | error e => rw [hb] at h; cases h
    | ok b => rw [hb] at h; cases h; simp only [scale, scales_post]
  | .dangling id, d, l, h => by
    rw [Prog.build] at *
    cases hb : getBucket cm id with
    | error e => rw [hb] at h; cases h
    | ok b =>
      rw [hb] at h
      dsimp only at h ⊢
      split at h
      · cases h
      · rename_i hd; cases h; rw [if_neg hd]; simp only [scale, scales_dangling]
  | .rootDangling id, d, l, h => by
    rw [Prog.build] at *
    cases hb : getBucket cm id with
    | error e => rw [hb] at h; cases h
    | ok b => rw [hb] at h; cases h; simp only [scale, scales_comments]
  | .punct p, d, l, h => by
    rw [Prog.build] at *
    cases hb : getBucket cm p.id with
    | error e => rw [hb] at h; cases h
    | ok b =>
      rw [hb] at h; cases h
      have : scales k (puncDocs b p) = puncDocs b p := by
        unfold puncDocs
        rw [scales_append, scales_append, scales_post, scales_post]
        simp [scale, scales, txt]
      simp only [scale, this]
  | .ifDangling id p q, d, l, h => by
    rw [Prog.build] at *
    cases hb : getBucket cm id with
    | error e => rw [hb] at h; cases h
    | ok b =>
      rw [hb] at h
      dsimp only at h ⊢
      split
      · rename_i hd; rw [if_pos hd] at h; exact build_scale k cm p d l h
      · rename_i hd; rw [if_neg hd] at h; exact build_scale k cm q d l h
  | .fail e, d, l, h => by rw [Prog.build] at h; cases h
theorem builds_scale (k : Nat) (cm : CMap) : ∀ (ps : List Prog) (ds : List Doc) (l : List Comment), Prog.builds 1 cm ps = .ok (ds, l) →
    Prog.builds k cm ps = .ok (scales k ds, l)
  | [], ds, l, h => by rw [Prog.builds] at *; cases h; simp [scales]
  | p :: ps, ds, l, h => by
    rw [Prog.builds] at *
    cases h1 : Prog.build 1 cm p with
    | error e => rw [h1] at h; cases h
    | ok a =>
      rw [h1] at h
      cases h2 : Prog.builds 1 cm ps with
      | error e => rw [h2] at h; cases h
      | ok b =>
        rw [h2] at h; cases h
        rw [build_scale k cm p a.1 a.2 h1]
        dsimp only
        rw [builds_scale k cm ps b.1 b.2 h2]
        simp only [scales]
end

/-! ### The lines written -/

/-- A character, or a line break with the indentation of the next line. -/
inductive Piece where
  | nl (level : Nat)
  | chr (c : Char)

def Piece.text (k : Nat) : Piece → Str
  | .nl n => '\n' :: spaces (k * n)
  | .chr c => [c]

/-- The text with indentation size `k`. -/
def render (k : Nat) (ps : List Piece) : Str := ps.flatMap (Piece.text k)

/-- The first line, and the others with their indentations. -/
def linesOf : List Piece → Str × List (Nat × Str)
  | [] => ([], [])
  | .nl n :: ps => ([], (n, (linesOf ps).1) :: (linesOf ps).2)
  | .chr c :: ps => if c = '\n' then ([], (0, (linesOf ps).1) :: (linesOf ps).2) else (c :: (linesOf ps).1, (linesOf ps).2)

theorem splitNl_spaces : ∀ (n : Nat) {s l : Str} {ls : List Str}, splitNl s = l :: ls → splitNl (spaces n ++ s) = (spaces n ++ l) :: ls
  | 0, s, l, ls, h => h
  | n + 1, s, l, ls, h => by
    show splitNl (' ' :: (spaces n ++ s)) = (' ' :: (spaces n ++ l)) :: ls
    rw [splitNl, if_neg (by decide), splitNl_spaces n h]

theorem splitNl_render (k : Nat) : ∀ (ps : List Piece),
    splitNl (render k ps) = (linesOf ps).1 :: (linesOf ps).2.map (fun l => spaces (k * l.1) ++ l.2)
  | [] => rfl
  | .nl n :: ps => by
    show splitNl ('\n' :: spaces (k * n) ++ render k ps) = _
    rw [List.cons_append, splitNl, if_pos rfl, splitNl_spaces _ (splitNl_render k ps), linesOf]
    rfl
  | .chr c :: ps => by
    show splitNl (c :: render k ps) = _
    rw [splitNl, linesOf]
    split
    · rename_i h
      rw [splitNl_render k ps]
      simp [spaces]
    · rw [splitNl_render k ps]

/-- State of the printer with the indentations in view. -/
structure LSt where
  out : List Piece
  pend : Option Nat

/-- The printer state of an indentation size. -/
def View (k : Nat) (s : LSt) (st : PSt) : Prop := st.out = render k s.out ∧ st.pend = s.pend.map (k * ·)

/-- The last piece ends with a blank. -/
def blankEnd (ps : List Piece) : Bool :=
  match ps.getLast? with
  | some (.nl n) => n != 0
  | some (.chr c) => c == ' '
  | none => false

theorem spaces_last : ∀ (n : Nat), (spaces (n + 1)).getLast? = some ' '
  | 0 => rfl
  | n + 1 => by
    have := spaces_last n
    show (' ' :: spaces (n + 1)).getLast? = some ' '
    rw [List.getLast?_cons, this]; rfl

theorem blankEnd_render {k : Nat} (hk : 0 < k) (ps : List Piece) : endsWithSpace (render k ps) = blankEnd ps := by
  rcases List.eq_nil_or_concat ps with rfl | ⟨qs, p, rfl⟩
  · rfl
  · unfold blankEnd endsWithSpace render
    rw [List.concat_eq_append, List.getLast?_concat, List.flatMap_append, List.flatMap_cons, List.flatMap_nil, List.append_nil]
    cases p with
    | chr c =>
      show (List.getLast? (_ ++ [c]) == _) = _
      rw [List.getLast?_concat]
      show (some c == some ' ') = (c == ' ')
      simp
    | nl n =>
      show (List.getLast? (_ ++ '\n' :: spaces (k * n)) == _) = (n != 0)
      cases n with
      | zero => rw [Nat.mul_zero]; show (List.getLast? (_ ++ ['\n']) == _) = _; rw [List.getLast?_concat]; rfl
      | succ n =>
        obtain ⟨m, hm⟩ : ∃ m, k * (n + 1) = m + 1 := ⟨k * (n + 1) - 1, (Nat.sub_add_cancel (Nat.mul_pos hk (Nat.succ_pos n))).symm⟩
        rw [hm, List.getLast?_append, List.getLast?_cons, spaces_last]
        rfl

def LSt.flush (s : LSt) : LSt :=
  match s.pend with
  | none => s
  | some i => { out := s.out ++ [.nl i], pend := none }

def lrun : Op → LSt → LSt
  | .pend i, s => { s with pend := some i }
  | .bare, s => { out := s.out ++ [.nl 0], pend := none }
  | .space, s => { s with out := s.out ++ [.chr ' '] }
  | .text t _, s => if t = [' '] ∧ blankEnd s.flush.out = true then s.flush else { s.flush with out := s.flush.out ++ t.map .chr }
  | .flush, s => s.flush

theorem render_append (k : Nat) (a b : List Piece) : render k (a ++ b) = render k a ++ render k b := by
  unfold render; rw [List.flatMap_append]

theorem render_chars (k : Nat) : ∀ (s : Str), render k (s.map .chr) = s
  | [] => rfl
  | c :: s => by
    show c :: render k (s.map .chr) = c :: s
    rw [render_chars k s]

theorem view_flush {k : Nat} {s : LSt} {st : PSt} (h : View k s st) : View k s.flush st.flush := by
  obtain ⟨h1, h2⟩ := h
  cases hp : s.pend with
  | none =>
    rw [hp] at h2
    have h2 : st.pend = none := h2
    simp only [LSt.flush, hp, PSt.flush, h2]
    exact ⟨h1, by rw [h2, hp]; rfl⟩
  | some i =>
    rw [hp] at h2
    have h2 : st.pend = some (k * i) := h2
    simp only [LSt.flush, hp, PSt.flush, h2]
    refine ⟨?_, rfl⟩
    show st.out ++ _ = _
    rw [render_append, h1]
    show _ = _ ++ (('\n' :: spaces (k * i)) ++ [])
    rw [List.append_nil]

theorem view_run {k : Nat} (hk : 0 < k) (o : Op) {s : LSt} {st : PSt} (h : View k s st) :
    View k (lrun o s) ((scaleO k o).run st) := by
  cases o with
  | pend i => exact ⟨h.1, rfl⟩
  | bare =>
    refine ⟨?_, rfl⟩
    show st.out ++ ['\n'] = render k (s.out ++ [.nl 0])
    rw [render_append, h.1]; rfl
  | space =>
    refine ⟨?_, h.2⟩
    show st.out ++ [' '] = render k (s.out ++ [.chr ' '])
    rw [render_append, h.1]; rfl
  | flush => exact view_flush h
  | text t n =>
    have hf := view_flush h
    show View k (if _ then _ else _) (st.flush.putText t n)
    unfold PSt.putText
    rw [hf.1, blankEnd_render hk]
    split
    · exact hf
    · refine ⟨?_, hf.2⟩
      show render k _ ++ t = render k (_ ++ _)
      rw [render_append, render_chars]

theorem view_runs {k : Nat} (hk : 0 < k) : ∀ (ops : List Op) {s : LSt} {st : PSt}, View k s st →
    View k (ops.foldl (fun s o => lrun o s) s) (runOps (ops.map (scaleO k)) st)
  | [], s, st, h => h
  | o :: ops, s, st, h => by
    rw [List.map_cons, runOps_cons, List.foldl_cons]
    exact view_runs hk ops (view_run hk o h)

/-- At great widths the layouts of a document scaled differently have the same lines but for the indentation. -/
theorem layoutI_lines (d : Doc) : ∃ ls : List (Nat × Str), ∀ k, 0 < k →
    splitNl (layoutI (scale k d)) = ls.map (fun l => spaces (k * l.1) ++ l.2) := by
  refine ⟨(0, (linesOf ((trI d 0 false []).foldl (fun s o => lrun o s) ⟨[], none⟩).flush.out).1) ::
    (linesOf ((trI d 0 false []).foldl (fun s o => lrun o s) ⟨[], none⟩).flush.out).2, fun k hk => ?_⟩
  have h := view_flush (view_runs hk (trI d 0 false []) (s := ⟨[], none⟩) (st := PSt.init) ⟨rfl, rfl⟩)
  have e := trI_scale k d 0 false []
  rw [Nat.mul_zero, List.map_nil] at e
  rw [layoutI, e, h.1, splitNl_render]
  simp [spaces]

end Width
end Afmt
