import Verif.Trail.Text
import Verif.Notes.Again

/-!
# Texts that are not printed do not matter: trees with comments
-/

namespace Afmt

mutual
/-- Kinds, printed texts and the texts of leaves satisfy `t`; comments have a visible text, and the lines in which they are
printed satisfy `u`. -/
def primBy (t u : Str → Bool) (pk : String) (pf : Option String) : Node → Bool
  | .mk id kind named extra err field sr er sb eb text children =>
    t kind.toList &&
    (if extra then !(ink text).isEmpty && (drawn (.mk id kind named extra err field sr er sb eb text children)).all u
     else !((Node.mk id kind named extra err field sr er sb eb text children).shown pk pf || children.isEmpty) || t text) &&
    primsBy t u kind field children
/-- Siblings. -/
def primsBy (t u : Str → Bool) (pk : String) (pf : Option String) : List Node → Bool
  | [] => true
  | c :: cs => primBy t u pk pf c && primsBy t u pk pf cs
end

namespace Ends
open Afmt.Lines (All)
open Gram hiding inner
open Afmt.Trail (inner ends front lead pair Gate Tight admitted tight_iff tidyEnds_eq Tight_const ends_cons)

/-! ### Texts with the same letters -/

/-- The letters of a text, with a blank before those that do not continue a word. -/
def sq : Bool → Str → Str
  | _, [] => []
  | w, c :: s => if isBlank c then sq false s else (if w && wordChar c then [c] else [' ', c]) ++ sq (wordChar c) s

theorem letters_sq : ∀ (s : Str) (w w' : Bool), (w = true → w' = true) → letters w' (sq w s) = letters w s
  | [], _, _, _ => rfl
  | c :: s, w, w', h => by
    rw [sq, letters]
    by_cases hb : isBlank c = true
    · rw [if_pos hb, if_pos hb]
      exact letters_sq s false w' (fun h => nomatch h)
    · rw [if_neg hb, if_neg hb]
      have ih := letters_sq s (wordChar c) (wordChar c) id
      by_cases hw : (w && wordChar c) = true
      · rw [if_pos hw, hw]
        rw [Bool.and_eq_true] at hw
        show letters w' (c :: sq (wordChar c) s) = _
        rw [letters, if_neg hb, ih, h hw.1, hw.2]
        rfl
      · rw [if_neg hw]
        show letters w' (' ' :: c :: sq (wordChar c) s) = _
        rw [letters, if_pos (by decide), letters, if_neg hb, ih, Bool.false_and, Bool.eq_false_iff.2 hw]

theorem sq_false : ∀ s : Str, sq false s = [] ∨ ∃ c r w, isBlank c = false ∧ sq false s = ' ' :: c :: sq w r
  | [] => .inl rfl
  | c :: s => by
    rw [sq]
    by_cases hb : isBlank c = true
    · rw [if_pos hb]; exact sq_false s
    · rw [if_neg hb, Bool.false_and, if_neg (by decide)]
      exact .inr ⟨c, s, wordChar c, Bool.eq_false_iff.2 hb, rfl⟩

theorem blank_ne {c : Char} (h : isBlank c = false) : c ≠ ' ' ∧ c ≠ '\n' := by
  unfold isBlank at h
  simp only [Bool.or_eq_false_iff, beq_eq_false_iff_ne] at h
  exact ⟨h.1, h.2⟩

theorem sq_nl : ∀ (s : Str) (w : Bool), '\n' ∉ sq w s
  | [], _ => List.not_mem_nil
  | c :: s, w => by
    rw [sq]
    by_cases hb : isBlank c = true
    · rw [if_pos hb]; exact sq_nl s false
    · rw [if_neg hb]
      have := (blank_ne (Bool.eq_false_iff.2 hb)).2
      split <;> simp [this.symm, sq_nl s (wordChar c)]

theorem pair_ink {c : Char} (h : c ≠ ' ') (s : Str) : pair (c :: s) = pair s := by
  cases s with
  | nil => rfl
  | cons d s => rw [pair, beq_eq_false_iff_ne.2 h, Bool.false_and, Bool.false_or]

theorem sq_pair : ∀ (s : Str) (w : Bool), pair (sq w s) = false
  | [], _ => rfl
  | c :: s, w => by
    rw [sq]
    by_cases hb : isBlank c = true
    · rw [if_pos hb]; exact sq_pair s false
    · rw [if_neg hb]
      have hc := (blank_ne (Bool.eq_false_iff.2 hb)).1
      have ih := sq_pair s (wordChar c)
      split
      · show pair (c :: sq (wordChar c) s) = false
        rw [pair_ink hc, ih]
      · show pair (' ' :: c :: sq (wordChar c) s) = false
        rw [pair, pair_ink hc, ih, beq_eq_false_iff_ne.2 hc, Bool.and_false, Bool.or_false]

theorem sq_last : ∀ (s : Str) (w : Bool), (sq w s).getLast? = (ink s).getLast?
  | [], _ => rfl
  | c :: s, w => by
    rw [sq]
    by_cases hb : isBlank c = true
    · rw [if_pos hb, sq_last s false]
      unfold ink
      rw [List.filter_cons_of_neg (by simp [hb])]
    · rw [if_neg hb]
      have e : ink (c :: s) = c :: ink s := by
        unfold ink
        rw [List.filter_cons_of_pos (by simp [hb])]
      rw [e, List.getLast?_append, sq_last s (wordChar c), List.getLast?_cons]
      cases (ink s).getLast? with
      | some x => rfl
      | none => split <;> rfl

/-- The letters of a text, words separated by one blank. -/
def squash (s : Str) : Str := (sq false s).drop 1

theorem squash_letters (s : Str) : letters false (squash s) = letters false s := by
  have h := letters_sq s false false id
  unfold squash
  rcases sq_false s with e | ⟨c, r, w, hc, e⟩
  · rw [e] at h ⊢; exact h
  · rw [e] at h ⊢
    rw [letters, if_pos (by decide)] at h
    exact h

theorem squash_last {s : Str} (h : squash s ≠ []) : (squash s).getLast? = (ink s).getLast? := by
  rw [← sq_last s false]
  unfold squash at h ⊢
  rcases sq_false s with e | ⟨c, r, w, hc, e⟩
  · rw [e] at h; exact absurd rfl h
  · rw [e]
    show (c :: sq w r).getLast? = _
    rw [List.getLast?_cons_cons]

theorem inner_nl : ∀ s : Str, '\n' ∉ s → inner s = true
  | [], _ => rfl
  | [_], _ => rfl
  | c :: d :: s, h => by
    simp only [List.mem_cons, not_or] at h
    rw [inner, inner_nl (d :: s) (by simp [h.2.1, h.2.2]), beq_eq_false_iff_ne.2 (fun e => h.2.1 e.symm), Bool.and_false]
    rfl

/-- What counts as the end of a text. -/
def lastOk (s : Str) : Bool :=
  match s.getLast? with
  | some c => !isSpace c
  | none => false

theorem lastOk_append {a b : Str} (h : lastOk b = true) : lastOk (a ++ b) = true := by
  unfold lastOk at h ⊢
  rw [List.getLast?_append]
  cases hb : b.getLast? with
  | none => rw [hb] at h; cases h
  | some c => rw [hb] at h; exact h

theorem blanks_end : ∀ s : Str, ink s = [] → s ≠ [] → s.head? = some ' ' → inner s = true → ends s = true
  | [], _, h, _, _ => absurd rfl h
  | [c], _, _, h, _ => by cases h; decide
  | c :: d :: s, hi, _, hh, hin => by
    cases hh
    rw [inner, Bool.and_eq_true] at hin
    rw [ends_cons]
    have hi' : ink (d :: s) = [] := by
      have : ink (' ' :: d :: s) = ink (d :: s) := rfl
      rw [← this]; exact hi
    have hd : isBlank d = true := by
      have : d ∉ ink (d :: s) := by rw [hi']; exact List.not_mem_nil
      unfold ink at this
      cases hb : isBlank d with
      | true => rfl
      | false => exact absurd (List.mem_filter.2 ⟨List.mem_cons_self, by simp [hb]⟩) this
    refine blanks_end (d :: s) hi' (by simp) ?_ hin.2
    have h1 : (d == '\n') = false := by
      have := hin.1
      rw [show isSpace ' ' = true from rfl, Bool.true_and, Bool.not_eq_true'] at this
      exact this
    unfold isBlank at hd
    rw [h1, Bool.or_false] at hd
    rw [eq_of_beq hd]
    rfl

theorem ink_last : ∀ s : Str, inner s = true → ends s = false → ink s ≠ [] → lastOk (ink s) = true
  | [], _, _, h => absurd rfl h
  | [c], _, he, h => by
    unfold ink at h ⊢
    by_cases hb : isBlank c = true
    · rw [List.filter_cons_of_neg (by simp [hb])] at h; exact absurd rfl h
    · rw [List.filter_cons_of_pos (by simp [hb])]
      unfold ends at he
      unfold lastOk
      simp at he ⊢
      exact he
  | c :: d :: s, hi, he, h => by
    rw [inner, Bool.and_eq_true] at hi
    rw [ends_cons] at he
    by_cases h0 : ink (d :: s) = []
    · by_cases hb : isBlank c = true
      · unfold ink at h h0
        rw [List.filter_cons_of_neg (by simp [hb])] at h
        exact absurd h0 h
      · have e : ink (c :: d :: s) = [c] := by
          have : ink (c :: d :: s) = c :: ink (d :: s) := by
            unfold ink; rw [List.filter_cons_of_pos (by simp [hb])]
          rw [this, h0]
        rw [e]
        have hd : d = ' ' ∨ d = '\n' := by
          have : d ∉ ink (d :: s) := by rw [h0]; exact List.not_mem_nil
          unfold ink at this
          cases hb : isBlank d with
          | true =>
            unfold isBlank at hb
            simpa using hb
          | false => exact absurd (List.mem_filter.2 ⟨List.mem_cons_self, by simp [hb]⟩) this
        rcases hd with rfl | rfl
        · have := blanks_end (' ' :: s) h0 (by simp) rfl hi.2
          rw [this] at he
          cases he
        · have := hi.1
          simp at this
          unfold lastOk
          simp [this]
    · have ih := ink_last (d :: s) hi.2 he h0
      have : ∃ a, ink (c :: d :: s) = a ++ ink (d :: s) := by
        unfold ink
        by_cases hb : isBlank c = true
        · exact ⟨[], by rw [List.filter_cons_of_neg (by simp [hb])]; rfl⟩
        · exact ⟨[c], by rw [List.filter_cons_of_pos (by simp [hb])]; rfl⟩
      obtain ⟨a, e⟩ := this
      rw [e]
      exact lastOk_append ih

theorem ink_tidy {s : Str} (h1 : s ≠ []) (h2 : front s = true) (h3 : tidyEnds s = true) : lastOk (ink s) = true := by
  rw [tidyEnds_eq, Bool.and_eq_true, Bool.not_eq_true'] at h3
  refine ink_last s h3.1 h3.2 (fun h0 => ?_)
  cases s with
  | nil => exact h1 rfl
  | cons c s =>
    have hc : isBlank c = true := by
      have : c ∉ ink (c :: s) := by rw [h0]; exact List.not_mem_nil
      unfold ink at this
      cases hb : isBlank c with
      | true => rfl
      | false => exact absurd (List.mem_filter.2 ⟨List.mem_cons_self, by simp [hb]⟩) this
    have : c = ' ' := by
      unfold isBlank at hc
      unfold front at h2
      simp at h2 hc
      rcases hc with h | h
      · exact h
      · exact absurd h h2
    subst this
    have := blanks_end _ h0 (by simp) rfl h3.1
    rw [this] at h3
    exact absurd h3.2 (by decide)

variable [Gate]

/-- The text, or another one that can be printed; with the same letters if these do not end with white space. -/
def mendText (s : Str) : Str := if admitted s then s else if (squash s).isEmpty || ends (squash s) then ['x'] else squash s

theorem mendText_tight (s : Str) : Tight (mendText s) := by
  rw [mendText]
  split
  · exact (tight_iff _).1 ‹_›
  split
  · exact Tight_const (by decide)
  · rename_i h
    simp only [Bool.or_eq_true, not_or, Bool.not_eq_true] at h
    have hne : squash s ≠ [] := by simpa using h.1
    have hnl : '\n' ∉ squash s := fun h => sq_nl s false (List.mem_of_mem_drop h)
    have hf : front (squash s) = true := by
      unfold front
      cases hs : squash s with
      | nil => rfl
      | cons c r =>
        rw [hs] at hnl
        simp only [List.mem_cons, not_or] at hnl
        simp
        exact fun h => hnl.1 h.symm
    unfold Tight
    refine ⟨hne, hf, ?_, Gate.base _ ?_ (by simpa using hnl), fun _ => ?_⟩
    · rw [tidyEnds_eq, inner_nl _ hnl, h.2]; rfl
    · have := sq_pair s false
      unfold squash
      rcases sq_false s with e | ⟨c, r, w, hc, e⟩
      · rw [e]; rfl
      · rw [e] at this ⊢
        rw [pair, Bool.or_eq_false_iff] at this
        exact this.2
    · unfold squash lead
      rcases sq_false s with e | ⟨c, r, w, hc, e⟩
      · rw [e]; rfl
      · rw [e]
        simpa using (blank_ne hc).1

theorem mendText_letters {s : Str} (h : lastOk (ink s) = true) : letters false (mendText s) = letters false s := by
  rw [mendText]
  split
  · rfl
  split
  · rename_i h1
    have hne : squash s ≠ [] := by
      intro h0
      have := squash_letters s
      rw [h0] at this
      have h2 := letters_ink s false
      rw [← this] at h2
      rw [← h2] at h
      cases h
    rw [Bool.or_eq_true] at h1
    rcases h1 with h1 | h1
    · exact absurd (by simpa using h1) hne
    · unfold ends at h1
      rw [squash_last hne] at h1
      unfold lastOk at h
      cases hl : (ink s).getLast? with
      | none => rw [hl] at h1; cases h1
      | some c =>
        rw [hl] at h h1
        simp at h h1
        rw [h] at h1
        cases h1
  · exact squash_letters s

theorem mendText_same {s : Str} (h : admitted s = true) : mendText s = s := by rw [mendText, if_pos h]

mutual
/-- Replace the texts that cannot be printed; comments keep their texts. -/
def mend : Node → Node
  | .mk id kind named extra err field sr er sb eb text children =>
    .mk id kind named extra err field sr er sb eb (if extra then text else mendText text) (mends children)
/-- Siblings. -/
def mends : List Node → List Node
  | [] => []
  | n :: ns => mend n :: mends ns
end

theorem mends_eq (ns : List Node) : mends ns = ns.map mend := by
  induction ns with
  | nil => rw [mends, List.map_nil]
  | cons n ns ih => rw [mends, ih, List.map_cons]

theorem mend_named (n : Node) : (mend n).named = n.named := by cases n; rw [mend]
theorem mend_extra (n : Node) : (mend n).extra = n.extra := by cases n; rw [mend]
theorem mend_kind (n : Node) : (mend n).kind = n.kind := by cases n; rw [mend]
theorem mend_field (n : Node) : (mend n).field = n.field := by cases n; rw [mend]
theorem mend_startRow (n : Node) : (mend n).startRow = n.startRow := by cases n; rw [mend]
theorem mend_endRow (n : Node) : (mend n).endRow = n.endRow := by cases n; rw [mend]
theorem mend_startByte (n : Node) : (mend n).startByte = n.startByte := by cases n; rw [mend]
theorem mend_text {n : Node} (h : n.extra = false) : (mend n).text = mendText n.text := by
  cases n; simp only at h; rw [mend, h]; rfl
theorem mend_note {n : Node} (h : n.extra = true) : (mend n).text = n.text := by
  cases n; simp only at h; rw [mend, h]; rfl
theorem mend_children (n : Node) : (mend n).children = n.children.map mend := by cases n; rw [mend, mends_eq]
theorem mend_code (n : Node) : (mend n).isCode = n.isCode := by
  rw [Node.isCode, mend_extra, mend_named, mend_kind, Node.isCode]
theorem mend_shown (pk : String) (pf : Option String) (n : Node) : (mend n).shown pk pf = n.shown pk pf := by
  unfold Node.shown
  rw [mend_extra, mend_kind, mend_field, mend_children, List.any_map]
  simp only [Function.comp_def, mend_named]

theorem mend_find {p : Node → Bool} (hp : ∀ n : Node, p (mend n) = p n) (ns : List Node) :
    (ns.map mend).find? p = (ns.find? p).map mend := by
  rw [List.find?_map]
  congr 1
  congr 1
  funext x
  exact hp x

theorem mend_around (checks body : Bool) (lefts : List Node) (n : Node) (rights : List Node) :
    around checks body (lefts.map mend) (mend n) (rights.map mend) = around checks body lefts n rights := by
  unfold around
  simp only [mend_find mend_named, mend_find mend_code, Option.map_map, mend_extra, mend_named]
  simp only [Function.comp_def, mend_startRow, mend_endRow]

theorem mend_opFirst (n : Node) : (mend n).operatorFirst = n.operatorFirst := by
  unfold Node.operatorFirst
  rw [mend_children]
  have p1 : ∀ (s : String) (n : Node), ((mend n).field == some s) = (n.field == some s) := by
    intro s n; rw [mend_field]
  rw [mend_find (p1 "operator"), mend_find (p1 "operand")]
  cases n.children.find? (fun x => x.field == some "operator") with
  | none => rfl
  | some o =>
    cases n.children.find? (fun x => x.field == some "operand") with
    | none => rfl
    | some x => simp only [Option.map_some, mend_startByte]

mutual
theorem mend_ids : ∀ n : Node, (mend n).ids = n.ids
  | .mk id kind named extra err field sr er sb eb text children => by rw [mend, Node.ids, Node.ids, mends_ids children]
theorem mends_ids : ∀ ns : List Node, idsOf (mends ns) = idsOf ns
  | [] => rfl
  | n :: ns => by rw [mends, idsOf, idsOf, mend_ids n, mends_ids ns]
end

mutual
theorem mend_plain : ∀ n : Node, plain (mend n) = plain n
  | .mk id kind named extra err field sr er sb eb text children => by rw [mend, plain, plain, mends_plain children]
theorem mends_plain : ∀ ns : List Node, plains (mends ns) = plains ns
  | [] => rfl
  | n :: ns => by rw [mends, plains, plains, mend_plain n, mends_plain ns]
end

theorem mend_associable (n : Node) : (mend n).associable = n.associable := by
  unfold Node.associable
  simp only [mend_extra, mend_named, mend_kind]

mutual
theorem mend_closed : ∀ n : Node, n.Closed → (mend n).Closed
  | .mk id kind named extra err field sr er sb eb text children, h => by
    rw [mend]; rw [Node.Closed] at h ⊢; exact mends_closed children h
theorem mends_closed : ∀ ns : List Node, kidsClosed ns → kidsClosed (mends ns)
  | [], _ => trivial
  | n :: ns, h => by
    rw [mends]; rw [kidsClosed] at h ⊢
    refine ⟨fun ha => ?_, mend_closed n h.2.1, mends_closed ns h.2.2⟩
    rw [mend_associable] at ha
    rw [mend_children, h.1 ha, List.map_nil]
end

theorem All.mend {Q R : Node → Prop} (hqr : ∀ n, Q n → R (mend n)) {n : Node} (h : All Q n) : All R (Ends.mend n) := by
  induction h with
  | mk h _ ih =>
    refine .mk (hqr _ h) (fun c hc => ?_)
    rw [mend_children] at hc
    obtain ⟨d, hd, rfl⟩ := List.mem_map.1 hc
    exact ih d hd


/-! ### The skeleton -/

/-- Prims by the gate. -/
abbrev prim (pk : String) (pf : Option String) (n : Node) : Bool := primBy admitted (fun l => !l.isEmpty && Gate.ok l) pk pf n
/-- Siblings. -/
abbrev prims (pk : String) (pf : Option String) (ns : List Node) : Bool :=
  primsBy admitted (fun l => !l.isEmpty && Gate.ok l) pk pf ns

theorem prims_mem {pk : String} {pf : Option String} : ∀ {ns : List Node}, prims pk pf ns = true → ∀ c ∈ ns, prim pk pf c = true
  | [], _, c, hc => by cases hc
  | n :: ns, h, c, hc => by
    rw [prims, primsBy, Bool.and_eq_true] at h
    rcases List.mem_cons.1 hc with rfl | hc
    · exact h.1
    · exact prims_mem h.2 c hc

theorem prim_kids {pk : String} {pf : Option String} {n : Node} (h : prim pk pf n = true) : prims n.kind n.field n.children = true := by
  cases n
  rw [prim, primBy, Bool.and_eq_true] at h
  exact h.2

theorem prim_text {pk : String} {pf : Option String} {n : Node} (h : prim pk pf n = true) (he : n.extra = false)
    (hs : n.shown pk pf = true ∨ n.children = []) : admitted n.text = true := by
  cases n with
  | mk id kind named extra err field sr er sb eb text children =>
    simp only at he hs
    subst he
    rw [prim, primBy, Bool.and_eq_true, Bool.and_eq_true] at h
    have := h.1.2
    rw [if_neg (by decide), Bool.or_eq_true] at this
    rcases this with h1 | h1
    · rw [Bool.not_eq_true', Bool.or_eq_false_iff] at h1
      rcases hs with hs | hs
      · rw [hs] at h1; exact absurd h1.1 (by decide)
      · rw [hs] at h1; exact absurd h1.2 (by decide)
    · exact h1

theorem mend_same {pk : String} {pf : Option String} {n : Node} (h : prim pk pf n = true)
    (hs : n.extra = true ∨ n.shown pk pf = true ∨ n.children = []) : (mend n).text = n.text := by
  cases he : n.extra with
  | true => exact mend_note he
  | false =>
    rw [he] at hs
    rw [mend_text he, mendText_same (prim_text h he (hs.resolve_left (by decide)))]

mutual
theorem mend_skel (checks : Bool) (pk : String) (pf : Option String) (body : Bool) (lefts rights : List Node) : ∀ n : Node,
    prim pk pf n = true → (mend n).skel checks pk pf body (lefts.map mend) (rights.map mend) = n.skel checks pk pf body lefts rights
  | .mk id kind named extra err field sr er sb eb text children, h => by
    have h1 := mend_around checks body lefts (.mk id kind named extra err field sr er sb eb text children) rights
    have h2 := mend_opFirst (.mk id kind named extra err field sr er sb eb text children)
    have h3 := mend_shown pk pf (.mk id kind named extra err field sr er sb eb text children)
    have h5 := mend_skels checks kind field (isBodyNode pk field kind) children [] (prim_kids h)
    have h4 := fun hs => mend_same h (.inr (.inl hs))
    simp only [mend] at h1 h2 h3 h4 ⊢
    rw [Node.skel, Node.skel]
    simp only [h1, h2, h3]
    have h6 : (if (Node.mk id kind named extra err field sr er sb eb text children).shown pk pf = true then
          some ((Node.mk id kind named extra err field sr er sb eb (if extra then text else mendText text) (mends children)).spelling pk pf) else none) =
        if (Node.mk id kind named extra err field sr er sb eb text children).shown pk pf = true then
          some ((Node.mk id kind named extra err field sr er sb eb text children).spelling pk pf) else none := by
      split
      · rename_i hs
        rw [Node.spelling, Node.spelling]
        simp only [h4 hs]
      · rfl
    rw [h6, mends_eq]
    exact congrArg _ h5
theorem mend_skels (checks : Bool) (pk : String) (pf : Option String) (body : Bool) : ∀ ns lefts : List Node,
    prims pk pf ns = true → skels checks pk pf body (lefts.map mend) (ns.map mend) = skels checks pk pf body lefts ns
  | [], _, _ => by rw [List.map_nil, skels, skels]
  | n :: ns, lefts, h => by
    rw [prims, primsBy, Bool.and_eq_true] at h
    rw [List.map_cons, skels, skels, mend_skel checks pk pf body lefts ns n h.1]
    have := mend_skels checks pk pf body ns (n :: lefts) h.2
    rw [List.map_cons] at this
    rw [this]
end

/-! ### Letters -/

mutual
theorem mend_lex : ∀ (pk : String) (pf : Option String) (n : Node), prim pk pf n = true → lex (mend n) = lex n
  | pk, pf, .mk id kind named extra err field sr er sb eb text children, h => by
    have h4 := mend_same h
    have h5 := mend_lexs kind field children (prim_kids h)
    cases extra with
    | true => rw [mend, lex.eq_def, lex.eq_def]; simp
    | false =>
      cases children with
      | nil =>
        have := h4 (.inr (.inr rfl))
        rw [mend] at this ⊢
        simp only at this
        rw [this, mends]
      | cons c cs =>
        rw [mends, lexs, lexs] at h5
        rw [mend, mends, lex, lex]
        simpa using h5
theorem mend_lexs : ∀ (pk : String) (pf : Option String) (ns : List Node), prims pk pf ns = true → lexs (mends ns) = lexs ns
  | _, _, [], _ => by rw [mends]
  | pk, pf, n :: ns, h => by
    rw [prims, primsBy, Bool.and_eq_true] at h
    rw [mends, lexs, lexs, mend_lex pk pf n h.1, mend_lexs pk pf ns h.2]
end

theorem tight_lastOk {s : Str} (h : admitted s = true) : lastOk (ink s) = true := by
  have := (tight_iff _).1 h
  unfold Tight at this
  exact ink_tidy this.1 this.2.1 this.2.2.1

mutual
theorem lex_last : ∀ (pk : String) (pf : Option String) (n : Node), prim pk pf n = true → plain n = true →
    lastOk ((lex n).map (·.2.1)) = true
  | pk, pf, .mk id kind named extra err field sr er sb eb text children, h, hp => by
    have h5 := lexs_last kind field children (prim_kids h)
    rw [plain, Bool.and_eq_true, Bool.not_eq_true'] at hp
    have h6 := fun hs => prim_text h hp.1 (.inr hs)
    obtain ⟨rfl, hp⟩ := hp
    cases children with
    | nil =>
      rw [lex]
      simp only [Bool.false_eq_true, if_false, List.map_map]
      have := tight_lastOk (h6 rfl)
      rw [← letters_ink _ false] at this
      exact this
    | cons c cs =>
      rw [lex]
      simp only [Bool.false_eq_true, if_false]
      have := h5 hp (by simp)
      rwa [lexs] at this
theorem lexs_last : ∀ (pk : String) (pf : Option String) (ns : List Node), prims pk pf ns = true → plains ns = true → ns ≠ [] →
    lastOk ((lexs ns).map (·.2.1)) = true
  | _, _, [], _, _, h => absurd rfl h
  | pk, pf, n :: ns, h, hp, _ => by
    rw [prims, primsBy, Bool.and_eq_true] at h
    rw [plains, Bool.and_eq_true] at hp
    rw [lexs, List.map_append]
    cases ns with
    | nil => rw [lexs, List.map_nil, List.append_nil]; exact lex_last pk pf n h.1 hp.1
    | cons m ms => exact lastOk_append (lexs_last pk pf (m :: ms) h.2 hp.2 (by simp))
end

theorem spelled_letters {pk : String} {pf : Option String} {n : Node} (h : prim pk pf n = true) (hs : spelled n = true) :
    letters false (mend n).text = letters false n.text := by
  unfold spelled at hs
  simp only [Bool.and_eq_true, beq_iff_eq] at hs
  have he : n.extra = false := by
    have := hs.1.1
    cases n
    rw [plain, Bool.and_eq_true, Bool.not_eq_true'] at this
    exact this.1
  rw [mend_text he]
  refine mendText_letters ?_
  rw [← letters_ink _ false, ← hs.2, List.map_map]
  exact lex_last pk pf n h hs.1.1

mutual
theorem mend_noBody : ∀ n : Node, noBody (mend n) = noBody n
  | .mk id kind named extra err field sr er sb eb text children => by rw [mend, noBody, noBody, mends_noBody children]
theorem mends_noBody : ∀ ns : List Node, noBodies (mends ns) = noBodies ns
  | [] => rfl
  | n :: ns => by rw [mends, noBodies, noBodies, mend_noBody n, mends_noBody ns]
end

theorem mend_spelled {pk : String} {pf : Option String} {n : Node} (h : prim pk pf n = true) (hs : spelled n = true) :
    spelled (mend n) = true := by
  have h1 := spelled_letters h hs
  unfold spelled at hs ⊢
  rw [mend_plain, mend_noBody, mend_lex pk pf n h, h1]
  exact hs

theorem mend_token {pk : String} {pf : Option String} {n : Node} (h : prim pk pf n = true) : tokenText (mend n) = tokenText n := by
  unfold tokenText
  rw [mend_kind, mend_children, List.isEmpty_map]
  cases hc : n.children with
  | nil => rw [mend_same h (.inr (.inr hc))]
  | cons c cs => rfl

/-! ### Conformance -/

theorem mend_quiet (n : Node) : Gram.Node.quiet (mend n) = Gram.Node.quiet n := by
  unfold Gram.Node.quiet
  rw [mend_kind, mend_field]

theorem mend_orderly : ∀ ns : List Node, orderly (ns.map mend) = orderly ns
  | [] => rfl
  | [n] => rfl
  | a :: b :: r => by
    have ih := mend_orderly (b :: r)
    rw [List.map_cons] at ih
    rw [List.map_cons, List.map_cons, orderly, orderly, mend_quiet, mend_kind, mend_startByte, mend_startByte, ih]

omit [Gate] in
theorem all_same {p q : Node → Bool} : ∀ {ns : List Node}, (∀ c ∈ ns, p c = q c) → ns.all p = ns.all q
  | [], _ => rfl
  | n :: ns, h => by
    rw [List.all_cons, List.all_cons, h n List.mem_cons_self, all_same (fun c hc => h c (List.mem_cons_of_mem _ hc))]

theorem mend_sane {pk : String} {pf : Option String} {kind : String} {ns : List Node} (h : prims pk pf ns = true) :
    sane kind (ns.map mend) = sane kind ns := by
  have hf : (ns.map mend).filter (fun c => !c.extra) = (ns.filter (fun c => !c.extra)).map mend := by
    rw [List.filter_map]
    simp only [Function.comp_def, mend_extra]
  have ht : (ns.filter (fun c => !c.extra)).all ((fun c => !(c.kind == "," || c.kind == ";") || (!c.named && tokenText c)) ∘ mend) =
      (ns.filter (fun c => !c.extra)).all (fun c => !(c.kind == "," || c.kind == ";") || (!c.named && tokenText c)) := by
    refine all_same (fun c hc => ?_)
    simp only [Function.comp_def, mend_kind, mend_named]
    rw [mend_token (prims_mem h c (List.mem_filter.1 hc).1)]
  unfold sane
  simp only [hf, mend_orderly, List.all_map, List.any_map, ht]
  simp only [Function.comp_def, mend_extra, mend_field, mend_kind, mend_named, mend_children, List.isEmpty_map]

theorem mend_dmlOperation (n : Node) : dmlOperation (mend n) = dmlOperation n := by
  unfold dmlOperation
  rw [mend_children, mend_find (p := fun c => c.kind == "dml_type") (fun n => by rw [mend_kind])]
  cases n.children.find? (fun c => c.kind == "dml_type") with
  | none => rfl
  | some t =>
    simp only [Option.map_some]
    rw [mend_children, mend_find (p := fun c => c.named && !c.extra) (fun n => by rw [mend_named, mend_extra]), Option.map_map]
    congr 1
    funext x
    exact mend_kind x

theorem mend_dmlSane (n : Node) : dmlSane (mend n) = dmlSane n := by
  unfold dmlSane
  rw [mend_dmlOperation, mend_kind, mend_children]
  simp only [List.all_map, List.any_map, Function.comp_def, mend_field]

theorem mend_fits {pk : String} {pf : Option String} {n : Node} (h : prim pk pf n = true) (a : Atom) : a.fits (mend n) = a.fits n := by
  unfold Atom.fits
  rw [mend_named, mend_field, mend_kind, mend_token h]

mutual
theorem mend_conf : ∀ (pk : String) (pf : Option String) (n : Node) (nt : NT), prim pk pf n = true → conf n nt = true →
    conf (mend n) nt = true
  | pk, pf, .mk id kind named extra err field sr er sb eb text children, nt, h, hc => by
    have h1 := mend_spelled h
    have h2 := mend_lex pk pf _ h
    have h3 := mend_dmlSane (.mk id kind named extra err field sr er sb eb text children)
    have h4 := mend_same h
    have h5 := spelled_letters h
    have h6 := mend_confs kind field children (rs := prim_kids h)
    have h7 : sane kind (mends children) = sane kind children := by rw [mends_eq]; exact mend_sane (prim_kids h)
    have h8 : (mends children).all (fun c => !c.named) = children.all (fun c => !c.named) := by
      rw [mends_eq, List.all_map]
      simp only [Function.comp_def, mend_named]
    have h9 : (mends children).isEmpty = children.isEmpty := by rw [mends_eq, List.isEmpty_map]
    rw [mend] at h1 h2 h3 h4 h5 ⊢
    rw [conf] at hc ⊢
    simp only at h4 h5
    simp only [Bool.and_eq_true] at hc ⊢
    refine ⟨hc.1, ?_⟩
    have hc2 := hc.2
    clear hc
    split at hc2
    · rename_i hp
      simp only [Bool.and_eq_true] at hc2 ⊢
      rw [h2]
      exact ⟨h1 hc2.1, hc2.2⟩
    · rename_i tbl hp
      simp only [Bool.and_eq_true] at hc2 ⊢
      rw [h2, h5 hc2.1.1]
      exact ⟨⟨h1 hc2.1.1, hc2.1.2⟩, hc2.2⟩
    · rename_i val ps hp
      simp only [Bool.or_eq_true, Bool.and_eq_true] at hc2 ⊢
      rcases hc2 with ⟨⟨g1, g2⟩, g3⟩ | ⟨⟨⟨g1, g2⟩, g3⟩, g4⟩
      · exact .inl ⟨⟨g1, h1 g2⟩, by rw [h8]; exact g3⟩
      · refine .inr ⟨⟨⟨by rw [h7]; exact g1, by rw [h3]; exact g2⟩, ?_⟩, h6 _ g4⟩
        rw [h9]
        rcases g3 with g3 | g3
        · exact .inl g3
        · cases hcs : children with
          | nil => rw [h4 (.inr (.inr hcs))]; exact .inr g3
          | cons c cs => exact .inl rfl
theorem mend_confs (pk : String) (pf : Option String) : ∀ (ns : List Node), (rs : prims pk pf ns = true) → ∀ r : Rx, confs ns r = true →
    confs (mends ns) r = true
  | [], _, r, h => by rw [mends]; exact h
  | c :: cs, hp, r, h => by
    rw [prims, primsBy, Bool.and_eq_true] at hp
    rw [mends]
    rw [confs] at h ⊢
    rw [mend_extra]
    split at h
    · rename_i he
      rw [if_pos he]
      exact mend_confs pk pf cs hp.2 r h
    · rename_i he
      rw [if_neg he]
      rw [List.any_eq_true] at h ⊢
      obtain ⟨a, ha, h⟩ := h
      refine ⟨a, ha, ?_⟩
      rw [Bool.and_eq_true, Bool.and_eq_true] at h ⊢
      refine ⟨⟨by rw [mend_fits hp.1]; exact h.1.1, ?_⟩, mend_confs pk pf cs hp.2 _ h.2⟩
      have := h.1.2
      revert this
      cases a.nt with
      | some nt => exact fun this => mend_conf pk pf c nt hp.1 this
      | none => exact id
end

/-! ### Comments between members -/

theorem mend_isNote (n : Node) : isNote (mend n) = isNote n := by
  unfold isNote
  cases he : n.extra with
  | false => rw [mend_extra, he]; rfl
  | true =>
    rw [mend_note he, mend_extra, mend_named, mend_kind, mend_children, List.isEmpty_map, mend_startRow, mend_endRow, he]

theorem mend_atEnd (a b : Node) : atEnd (mend a) (mend b) = atEnd a b := by
  unfold atEnd
  rw [mend_extra, mend_extra, mend_kind, mend_startRow, mend_endRow]

theorem mend_apart : ∀ ns : List Node, apartRows (ns.map mend) = apartRows ns
  | [] => rfl
  | [n] => rfl
  | a :: b :: r => by
    have ih := mend_apart (b :: r)
    rw [List.map_cons] at ih
    rw [List.map_cons, List.map_cons, apartRows, apartRows, ih, mend_extra, mend_extra, mend_atEnd, mend_endRow, mend_startRow]

theorem mend_settledBody (ns : List Node) : settledBody (ns.map mend) = settledBody ns := by
  unfold settledBody
  simp only [List.all_map, List.any_map, List.dropWhile_map, List.filter_map, mend_apart, Function.comp_def, mend_extra, mend_named, mend_isNote]

mutual
theorem mend_settled : ∀ n : Node, settled (mend n) = settled n
  | .mk id kind named extra err field sr er sb eb text children => by
    rw [mend, settled, settled, mends_settled children, mends_eq, mend_settledBody, List.all_map]
    simp only [Function.comp_def, mend_extra]
theorem mends_settled : ∀ ns : List Node, settleds (mends ns) = settleds ns
  | [] => rfl
  | n :: ns => by rw [mends, settleds, settleds, mend_settled n, mends_settled ns]
end

end Ends
end Afmt
