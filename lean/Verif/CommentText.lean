import Verif.Segments

/-!
# Text lemmas for comments: trimming, lines, JavaDoc lines
-/

namespace Afmt

/-! ### Trimming -/

/-- The text neither starts nor ends with white space. -/
def Trimmed (s : Str) : Prop := (∀ c ∈ s.head?, isWs c = false) ∧ ∀ c ∈ s.getLast?, isWs c = false

theorem dropWhile_split (p : Char → Bool) (s : Str) : ∃ w, s = w ++ s.dropWhile p ∧ (∀ c ∈ w, p c = true) ∧
    ∀ c ∈ (s.dropWhile p).head?, p c = false := by
  induction s with
  | nil => exact ⟨[], by simp⟩
  | cons a s ih =>
    obtain ⟨w, h1, h2, h3⟩ := ih
    by_cases ha : p a = true
    · refine ⟨a :: w, by simp [ha, ← h1], ?_, by simpa [List.dropWhile_cons, ha] using h3⟩
      intro c hc
      rcases List.mem_cons.1 hc with rfl | hc
      · exact ha
      · exact h2 c hc
    · refine ⟨[], by simp [ha], by simp, ?_⟩
      intro c hc
      simp only [List.dropWhile_cons, ha] at hc
      simp only [Bool.false_eq_true, if_false, List.head?_cons, Option.mem_def, Option.some.injEq] at hc
      rw [← hc]; simpa using ha

theorem trimStart_split (s : Str) : ∃ w, s = w ++ trimStart s ∧ (∀ c ∈ w, isWs c = true) ∧
    ∀ c ∈ (trimStart s).head?, isWs c = false := dropWhile_split isWs s

theorem trimEnd_split (s : Str) : ∃ w, s = trimEnd s ++ w ∧ (∀ c ∈ w, isWs c = true) ∧
    ∀ c ∈ (trimEnd s).getLast?, isWs c = false := by
  obtain ⟨w, h1, h2, h3⟩ := dropWhile_split isWs s.reverse
  refine ⟨w.reverse, ?_, by simpa using h2, ?_⟩
  · have := congrArg List.reverse h1
    simpa [trimEnd] using this
  · simpa [trimEnd] using h3

theorem trimStart_of_head {s : Str} (h : ∀ c ∈ s.head?, isWs c = false) : trimStart s = s := by
  cases s with
  | nil => rfl
  | cons a s => simp [trimStart, h a (by simp)]

theorem trimEnd_of_last {s : Str} (h : ∀ c ∈ s.getLast?, isWs c = false) : trimEnd s = s := by
  have : trimStart s.reverse = s.reverse := trimStart_of_head (by simpa using h)
  simp only [trimStart] at this
  simp [trimEnd, this]

theorem trim_of_trimmed {s : Str} (h : Trimmed s) : trim s = s := by
  rw [trim, trimStart_of_head h.1, trimEnd_of_last h.2]

theorem trimStart_ws_append {w s : Str} (h : ∀ c ∈ w, isWs c = true) : trimStart (w ++ s) = trimStart s := by
  induction w with
  | nil => rfl
  | cons a w ih =>
    have := h a (by simp)
    simp only [trimStart, List.cons_append, List.dropWhile_cons, this, if_true]
    exact ih (fun c hc => h c (by simp [hc]))

theorem trimEnd_append_ws {w s : Str} (h : ∀ c ∈ w, isWs c = true) : trimEnd (s ++ w) = trimEnd s := by
  have := trimStart_ws_append (w := w.reverse) (s := s.reverse) (by simpa using h)
  simp only [trimStart] at this
  simp [trimEnd, this]

theorem trimEnd_prefix (a : Str) {s : Str} (h : trimEnd s ≠ []) : trimEnd (a ++ s) = a ++ trimEnd s := by
  obtain ⟨w, h1, h2, h3⟩ := trimEnd_split s
  have h4 : a ++ s = (a ++ trimEnd s) ++ w := by rw [List.append_assoc, ← h1]
  rw [h4, trimEnd_append_ws h2]
  refine trimEnd_of_last ?_
  intro c hc
  rw [List.getLast?_append] at hc
  cases hl : (trimEnd s).getLast? with
  | none => simp [List.getLast?_eq_none_iff] at hl; exact absurd hl h
  | some d => rw [hl] at hc; exact h3 c (by simpa [hl] using hc)

theorem trimEnd_eq_nil {s : Str} (h : trimEnd s = []) : ∀ c ∈ s, isWs c = true := by
  obtain ⟨w, h1, h2, _⟩ := trimEnd_split s
  rw [h] at h1
  intro c hc
  rw [h1] at hc
  exact h2 c (by simpa using hc)

theorem trimmed_trim (s : Str) : Trimmed (trim s) := by
  obtain ⟨w, h1, h2, h3⟩ := trimStart_split s
  obtain ⟨w', h1', h2', h3'⟩ := trimEnd_split (trimStart s)
  refine ⟨?_, h3'⟩
  intro c hc
  simp only [trim] at hc
  refine h3 c ?_
  rw [h1']
  cases hh : trimEnd (trimStart s) with
  | nil => rw [hh] at hc; simp at hc
  | cons a t => rw [hh] at hc; simpa using hc

theorem trim_trim (s : Str) : trim (trim s) = trim s := trim_of_trimmed (trimmed_trim s)

theorem isWs_spaces (i : Nat) : ∀ c ∈ spaces i, isWs c = true := by
  intro c hc
  simp only [spaces, List.mem_replicate] at hc
  rw [hc.2]; decide

theorem trim_spaces_append (i : Nat) (s : Str) : trim (spaces i ++ s) = trim s := by
  rw [trim, trimStart_ws_append (isWs_spaces i)]; rfl

theorem trimEnd_sublist (s : Str) : (trimEnd s).Sublist s := by
  obtain ⟨w, h1, _⟩ := trimEnd_split s
  conv => rhs; rw [h1]
  exact List.sublist_append_left _ _

theorem trimStart_sublist (s : Str) : (trimStart s).Sublist s := by
  obtain ⟨w, h1, _⟩ := trimStart_split s
  conv => rhs; rw [h1]
  exact List.sublist_append_right _ _

theorem trim_sublist (s : Str) : (trim s).Sublist s := (trimEnd_sublist _).trans (trimStart_sublist _)

/-! ### Visible characters -/

/-- Characters that are no white space. -/
def dense (s : Str) : Str := s.filter (fun c => !isWs c)

/-- Characters that are neither white space nor a star. -/
def denseNoStar (s : Str) : Str := s.filter (fun c => !isWs c && c != '*')

theorem filter_ws_nil {q : Char → Bool} (hq : ∀ c, isWs c = true → q c = false) {w : Str} (h : ∀ c ∈ w, isWs c = true) :
    w.filter q = [] := by
  rw [List.filter_eq_nil_iff]
  intro c hc
  simp [hq c (h c hc)]

theorem filter_trimEnd {q : Char → Bool} (hq : ∀ c, isWs c = true → q c = false) (s : Str) :
    (trimEnd s).filter q = s.filter q := by
  obtain ⟨w, h1, h2, _⟩ := trimEnd_split s
  conv => rhs; rw [h1, List.filter_append, filter_ws_nil hq h2, List.append_nil]

theorem filter_trimStart {q : Char → Bool} (hq : ∀ c, isWs c = true → q c = false) (s : Str) :
    (trimStart s).filter q = s.filter q := by
  obtain ⟨w, h1, h2, _⟩ := trimStart_split s
  conv => rhs; rw [h1, List.filter_append, filter_ws_nil hq h2, List.nil_append]

theorem filter_trim {q : Char → Bool} (hq : ∀ c, isWs c = true → q c = false) (s : Str) :
    (trim s).filter q = s.filter q := by
  rw [trim, filter_trimEnd hq, filter_trimStart hq]

theorem dense_ws : ∀ c, isWs c = true → (fun c => !isWs c) c = false := by intro c h; simp [h]
theorem denseNoStar_ws : ∀ c, isWs c = true → (fun c => !isWs c && c != '*') c = false := by intro c h; simp [h]

@[simp] theorem dense_trim (s : Str) : dense (trim s) = dense s := filter_trim dense_ws s
@[simp] theorem denseNoStar_trim (s : Str) : denseNoStar (trim s) = denseNoStar s := filter_trim denseNoStar_ws s
@[simp] theorem denseNoStar_trimStart (s : Str) : denseNoStar (trimStart s) = denseNoStar s :=
  filter_trimStart denseNoStar_ws s
@[simp] theorem denseNoStar_append (a b : Str) : denseNoStar (a ++ b) = denseNoStar a ++ denseNoStar b := by
  simp [denseNoStar]

/-! ### Lines -/

theorem nl_not_mem_line (s : Str) : ∀ l ∈ splitNl s, '\n' ∉ l := by
  induction s with
  | nil => simp [splitNl]
  | cons c cs ih =>
    intro l hl
    simp only [splitNl] at hl
    split at hl
    · rcases List.mem_cons.1 hl with rfl | hl
      · simp
      · exact ih l hl
    · rename_i hc
      split at hl
      · simp only [List.mem_cons, List.not_mem_nil, or_false] at hl
        subst hl; simp [Ne.symm hc]
      · rename_i x xs hx
        rcases List.mem_cons.1 hl with rfl | hl
        · simp only [List.mem_cons, not_or]
          exact ⟨Ne.symm hc, ih x (by rw [hx]; simp)⟩
        · exact ih l (by rw [hx]; simp [hl])

/-- Lines of a text: the text before a newline is the first line. -/
theorem splitNl_append_nl {a : Str} (h : '\n' ∉ a) (s : Str) : splitNl (a ++ '\n' :: s) = a :: splitNl s := by
  induction a with
  | nil => simp [splitNl]
  | cons c a ih =>
    simp only [List.mem_cons, not_or] at h
    simp [splitNl, Ne.symm h.1, ih h.2]

theorem splitNl_no_nl {a : Str} (h : '\n' ∉ a) : splitNl a = [a] := by
  induction a with
  | nil => rfl
  | cons c a ih =>
    simp only [List.mem_cons, not_or] at h
    simp [splitNl, Ne.symm h.1, ih h.2]

theorem splitNl_spaces (i : Nat) {s x : Str} {xs : List Str} (h : splitNl s = x :: xs) :
    splitNl (spaces i ++ s) = (spaces i ++ x) :: xs := by
  induction i with
  | zero => simpa [spaces] using h
  | succ i ih =>
    have e : spaces (i + 1) = ' ' :: spaces i := rfl
    rw [e, List.cons_append, splitNl, if_neg (by decide), ih]
    rfl

theorem splitNl_joinLines (i : Nat) (l : Str) (ls : List Str) (h : ∀ x ∈ l :: ls, '\n' ∉ x) :
    splitNl (joinLines i (l :: ls)) = l :: ls.map (spaces i ++ ·) := by
  induction ls generalizing l with
  | nil => simpa [joinLines] using splitNl_no_nl (h l (by simp))
  | cons m ms ih =>
    have e : joinLines i (l :: m :: ms) = l ++ '\n' :: (spaces i ++ joinLines i (m :: ms)) := by
      simp [joinLines]
    rw [e, splitNl_append_nl (h l (by simp))]
    have ih' := ih m (fun x hx => h x (by simp [hx]))
    rw [splitNl_spaces i ih']
    rfl

theorem splitNl_flatMap {q : Char → Bool} (hq : q '\n' = false) (s : Str) :
    (splitNl s).flatMap (List.filter q) = s.filter q := by
  induction s with
  | nil => rfl
  | cons c cs ih =>
    simp only [splitNl]
    split
    · rename_i hc; subst hc; simp [hq, ih]
    · cases hs : splitNl cs with
      | nil => exact absurd hs (splitNl_ne_nil cs)
      | cons l ls =>
        rw [hs] at ih
        simp only [List.flatMap_cons] at ih ⊢
        rw [List.filter_cons, List.filter_cons, ← ih]
        split <;> simp

theorem joinLines_filter {q : Char → Bool} (hq : ∀ c, isWs c = true → q c = false) (i : Nat) (ls : List Str) :
    (joinLines i ls).filter q = ls.flatMap (List.filter q) := by
  have hn : q '\n' = false := hq _ (by decide)
  induction ls with
  | nil => rfl
  | cons l ls ih =>
    cases ls with
    | nil => simp [joinLines]
    | cons m ms =>
      rw [joinLines]
      · simp [hn, filter_ws_nil hq (isWs_spaces i), ih]
      · simp

/-! ### JavaDoc lines -/

/-- Normal form of a JavaDoc line between the first and the last. -/
def DocLine (x : Str) : Prop := x = " *".toList ∨ ∃ c, x = " * ".toList ++ c ∧ c ≠ [] ∧ Trimmed c

theorem trimmed_star_cons {c : Str} (hc : c ≠ []) (ht : Trimmed c) : Trimmed ('*' :: ' ' :: c) := by
  refine ⟨by simp; decide, ?_⟩
  intro d hd
  refine ht.2 d ?_
  cases c with
  | nil => exact absurd rfl hc
  | cons a c => simpa [List.getLast?_cons_cons] using hd

theorem trimStart_trimmed {s : Str} (h : ∀ c ∈ s.getLast?, isWs c = false) : Trimmed (trimStart s) := by
  obtain ⟨w, h1, h2, h3⟩ := trimStart_split s
  refine ⟨h3, ?_⟩
  intro c hc
  refine h c ?_
  rw [h1, List.getLast?_append]
  cases hl : (trimStart s).getLast? with
  | none => rw [hl] at hc; simp at hc
  | some d => rw [hl] at hc; simpa using hc

/-- Normal form lines are kept. -/
theorem javadocLine_docLine (i : Nat) {x : Str} (h : DocLine x) : javadocLine false (spaces i ++ x) = [x] := by
  rcases h with rfl | ⟨c, rfl, hc, ht⟩
  · have e : trim (spaces i ++ " *".toList) = ['*'] := by rw [trim_spaces_append]; decide
    simp only [javadocLine, e, Bool.false_eq_true, if_false]
    decide
  · have e : trim (spaces i ++ (" * ".toList ++ c)) = '*' :: ' ' :: c := by
      rw [trim_spaces_append]
      have : " * ".toList ++ c = [' '] ++ ('*' :: ' ' :: c) := rfl
      rw [this, trim, trimStart_ws_append (by simp; decide)]
      exact trim_of_trimmed (trimmed_star_cons hc ht)
    have e2 : trimStart (' ' :: c) = c := by
      have := trimStart_ws_append (w := [' ']) (s := c) (by simp; decide)
      rw [show ' ' :: c = [' '] ++ c from rfl, this]
      exact trimStart_of_head ht.1
    have e3 : stripPrefix ['*'] ('*' :: ' ' :: c) = some (' ' :: c) := by simp [stripPrefix]
    unfold javadocLine
    rw [e]
    simp only [Bool.false_eq_true, if_false, e3, e2, if_neg hc]
    simp

theorem javadocLine_close (i : Nat) : javadocLine true (spaces i ++ " */".toList) = [" */".toList] := by
  have e : trim (spaces i ++ " */".toList) = "*/".toList := by rw [trim_spaces_append]; decide
  simp only [javadocLine, e, if_true]
  decide

theorem docLine_of_false (l : Str) : ∀ x ∈ javadocLine false l, DocLine x := by
  intro x hx
  simp only [javadocLine, Bool.false_eq_true, if_false] at hx
  split at hx
  · simp only [List.mem_cons, List.not_mem_nil, or_false] at hx
    exact .inl hx
  · rename_i hne
    split at hx
    · rename_i a ha
      split at hx
      · simp only [List.mem_cons, List.not_mem_nil, or_false] at hx
        exact .inl hx
      · rename_i hc
        simp only [List.mem_cons, List.not_mem_nil, or_false] at hx
        refine .inr ⟨_, hx, hc, trimStart_trimmed ?_⟩
        simp only [stripPrefix] at ha
        split at ha
        · cases ha
          intro c hc'
          refine (trimmed_trim l).2 c ?_
          cases ht : trim l with
          | nil => rw [ht] at hne; exact absurd rfl hne
          | cons b t =>
            rw [ht] at hc'
            simp only [List.length_cons, List.length_nil, List.drop_succ_cons, List.drop_zero] at hc'
            cases t with
            | nil => simp at hc'
            | cons b' t' => simpa [List.getLast?_cons_cons] using hc'
        · cases ha
    · simp only [List.mem_cons, List.not_mem_nil, or_false] at hx
      exact .inr ⟨_, hx, hne, trimmed_trim l⟩

/-- The last line gives normal form lines and the closing line. -/
theorem docLine_of_true (l : Str) : ∃ init, javadocLine true l = init ++ [" */".toList] ∧ ∀ x ∈ init, DocLine x := by
  simp only [javadocLine, if_true]
  split
  · split
    · exact ⟨[], rfl, by simp⟩
    · rename_i hc
      exact ⟨[_], rfl, by
        intro x hx
        simp only [List.mem_cons, List.not_mem_nil, or_false] at hx
        exact .inr ⟨_, hx, hc, trimmed_trim _⟩⟩
  · exact ⟨[], rfl, by simp⟩

theorem javadocTail_form (ls : List Str) (h : ls ≠ []) :
    ∃ init, javadocTail ls = init ++ [" */".toList] ∧ ∀ x ∈ init, DocLine x := by
  induction ls with
  | nil => exact absurd rfl h
  | cons l ls ih =>
    cases ls with
    | nil => exact docLine_of_true l
    | cons m ms =>
      obtain ⟨init, e, hi⟩ := ih (by simp)
      refine ⟨javadocLine false l ++ init, by rw [javadocTail, e, List.append_assoc]; simp, ?_⟩
      intro x hx
      rcases List.mem_append.1 hx with hx | hx
      · exact docLine_of_false l x hx
      · exact hi x hx

/-- Normal form lines are kept by another rendering. -/
theorem javadocTail_fixed (i : Nat) (init : List Str) (h : ∀ x ∈ init, DocLine x) :
    javadocTail ((init ++ [" */".toList]).map (spaces i ++ ·)) = init ++ [" */".toList] := by
  induction init with
  | nil => simp only [List.nil_append, List.map_cons, List.map_nil, javadocTail]; exact javadocLine_close i
  | cons x init ih =>
    have h1 := ih (fun y hy => h y (by simp [hy]))
    have hne : (init ++ [" */".toList]).map (spaces i ++ ·) ≠ [] := by simp
    rw [List.cons_append, List.map_cons]
    cases hm : (init ++ [" */".toList]).map (spaces i ++ ·) with
    | nil => exact absurd hm hne
    | cons m ms =>
      rw [hm] at h1
      rw [javadocTail, h1, javadocLine_docLine i (h x (by simp))]
      · simp
      · simp

/-- The first line of a JavaDoc comment is rendered as its opening. -/
theorem splitFirstLine_form (r : Str) (ls : List Str) :
    ∃ l ls', splitFirstLine (("/**".toList ++ r) :: ls) = l :: ls' ∧ trim l = "/**".toList ∧
      (ls' = ls ∧ trimEnd r = [] ∨ ls' = trim (trimEnd r) :: ls ∧ trimEnd r ≠ []) := by
  by_cases hr : trimEnd r = []
  · have ht : trim ("/**".toList ++ r) = "/**".toList := by
      rw [trim, trimStart_of_head (by simp; decide), trimEnd_append_ws (trimEnd_eq_nil hr)]; decide
    refine ⟨_, ls, ?_, ht, .inl ⟨rfl, hr⟩⟩
    simp only [splitFirstLine, ht]
    rw [if_neg (by decide)]
  · have ht : trim ("/**".toList ++ r) = "/**".toList ++ trimEnd r := by
      rw [trim, trimStart_of_head (by simp; decide), trimEnd_prefix _ hr]
    have hlen : byteLen ("/**".toList ++ trimEnd r) > 3 := by
      rw [byteLen_append, show byteLen "/**".toList = 3 by decide]
      cases he : trimEnd r with
      | nil => exact absurd he hr
      | cons a t => simp only [byteLen_cons]; have := Char.utf8Size_pos a; omega
    have hd : ("/**".toList ++ trimEnd r).drop 3 = trimEnd r := rfl
    have hne : trim (trimEnd r) ≠ [] := by
      intro h
      obtain ⟨w, h1, h2, h3⟩ := trimEnd_split r
      have h4 : trimStart (trimEnd r) ≠ [] := by
        intro h5
        obtain ⟨w', h6, h7, _⟩ := trimStart_split (trimEnd r)
        rw [h5, List.append_nil] at h6
        obtain ⟨c, hc⟩ : ∃ c, (trimEnd r).getLast? = some c := by
          cases hl : (trimEnd r).getLast? with
          | none => rw [List.getLast?_eq_none_iff] at hl; exact absurd hl hr
          | some c => exact ⟨c, rfl⟩
        have h8 := h7 c (by rw [← h6]; exact List.mem_of_getLast? hc)
        rw [h3 c hc] at h8; cases h8
      rw [trim] at h
      have h9 := trimEnd_eq_nil h
      obtain ⟨a, ha⟩ : ∃ a, (trimStart (trimEnd r)).head? = some a := by
        cases hh : trimStart (trimEnd r) with
        | nil => exact absurd hh h4
        | cons a t => exact ⟨a, rfl⟩
      obtain ⟨_, _, _, h10⟩ := trimStart_split (trimEnd r)
      have := h9 a (List.mem_of_head? ha)
      rw [h10 a ha] at this; cases this
    refine ⟨"/**".toList, _, ?_, by decide, .inr ⟨rfl, hr⟩⟩
    simp only [splitFirstLine, ht]
    rw [if_pos hlen, hd]
    simp [hne]

/-! ### Lines are free of newlines -/

theorem mem_javadocLine (b : Bool) (l : Str) : ∀ x ∈ javadocLine b l, ∀ c ∈ x, c ∈ l ∨ c ∈ " */".toList := by
  have key : ∀ s : Str, s.Sublist l → ∀ c ∈ " * ".toList ++ s, c ∈ l ∨ c ∈ " */".toList := by
    intro s hs c hc
    rcases List.mem_append.1 hc with hc | hc
    · right
      have : ∀ c ∈ " * ".toList, c ∈ " */".toList := by decide
      exact this c hc
    · exact .inl (hs.subset hc)
  have k1 : ∀ c ∈ " *".toList, c ∈ l ∨ c ∈ " */".toList := by
    intro c hc
    right
    have : ∀ c ∈ " *".toList, c ∈ " */".toList := by decide
    exact this c hc
  intro x hx
  unfold javadocLine at hx
  simp only at hx
  split at hx
  · split at hx
    · rename_i a ha
      have hsub : (trim a).Sublist l := by
        refine (trim_sublist a).trans ?_
        simp only [stripSuffix] at ha
        split at ha
        · cases ha; exact (List.take_sublist _ _).trans (trim_sublist l)
        · cases ha
      split at hx
      · simp only [List.mem_cons, List.not_mem_nil, or_false] at hx
        subst hx; intro c hc; exact .inr hc
      · simp only [List.mem_cons, List.not_mem_nil, or_false] at hx
        rcases hx with rfl | rfl
        · exact key _ hsub
        · intro c hc; exact .inr hc
    · simp only [List.mem_cons, List.not_mem_nil, or_false] at hx
      subst hx; intro c hc; exact .inr hc
  · split at hx
    · simp only [List.mem_cons, List.not_mem_nil, or_false] at hx
      subst hx; exact k1
    · split at hx
      · rename_i a ha
        split at hx
        · simp only [List.mem_cons, List.not_mem_nil, or_false] at hx
          subst hx; exact k1
        · simp only [List.mem_cons, List.not_mem_nil, or_false] at hx
          subst hx
          refine key _ ((trimStart_sublist a).trans ?_)
          simp only [stripPrefix] at ha
          split at ha
          · cases ha; exact (List.drop_sublist _ _).trans (trim_sublist l)
          · cases ha
      · simp only [List.mem_cons, List.not_mem_nil, or_false] at hx
        subst hx; exact key _ (trim_sublist l)

theorem nl_javadocTail (ls : List Str) (h : ∀ l ∈ ls, '\n' ∉ l) : ∀ x ∈ javadocTail ls, '\n' ∉ x := by
  have one : ∀ b l, '\n' ∉ l → ∀ x ∈ javadocLine b l, '\n' ∉ x := by
    intro b l hl x hx hc
    rcases mem_javadocLine b l x hx _ hc with h | h
    · exact hl h
    · revert h; decide
  induction ls with
  | nil => simp [javadocTail]
  | cons l ls ih =>
    cases ls with
    | nil => exact one true l (h l (by simp))
    | cons m ms =>
      intro x hx
      rw [javadocTail, List.mem_append] at hx
      · rcases hx with hx | hx
        · exact one false l (h l (by simp)) x hx
        · exact ih (fun y hy => h y (by simp [hy])) x hx
      · simp

theorem nl_splitFirstLine (ls : List Str) (h : ∀ l ∈ ls, '\n' ∉ l) : ∀ x ∈ splitFirstLine ls, '\n' ∉ x := by
  intro x hx
  cases ls with
  | nil => simp [splitFirstLine] at hx
  | cons l ls =>
    simp only [splitFirstLine] at hx
    split at hx
    · split at hx
      · rcases List.mem_cons.1 hx with rfl | hx
        · decide
        · rcases List.mem_cons.1 hx with rfl | hx
          · intro hc
            exact h l (by simp) (((trim_sublist _).trans ((List.drop_sublist _ _).trans (trim_sublist l))).subset hc)
          · exact h x (by simp [hx])
      · exact h x hx
    · exact h x hx

theorem nl_blockLines (v : Str) : ∀ x ∈ blockLines v, '\n' ∉ x := by
  have ht : ∀ l : Str, '\n' ∉ l → '\n' ∉ trim l := fun l hl hc => hl ((trim_sublist l).subset hc)
  intro x hx
  simp only [blockLines] at hx
  split at hx
  · have hs := nl_splitFirstLine _ (nl_not_mem_line v)
    cases hl : splitFirstLine (splitNl v) with
    | nil => rw [hl] at hx; simp at hx
    | cons l ls =>
      rw [hl] at hx hs
      rcases List.mem_cons.1 hx with rfl | hx
      · exact ht l (hs l (by simp))
      · exact nl_javadocTail ls (fun y hy => hs y (by simp [hy])) x hx
  · obtain ⟨l, hl, rfl⟩ := List.mem_map.1 hx
    exact ht l (nl_not_mem_line v l hl)

/-- Text without newline at the end of a text belongs to its last line. -/
theorem splitNl_append_no_nl {t : Str} (ht : '\n' ∉ t) (u : Str) :
    ∃ init l, splitNl u = init ++ [l] ∧ splitNl (u ++ t) = init ++ [l ++ t] := by
  induction u with
  | nil => exact ⟨[], [], rfl, by simpa using splitNl_no_nl ht⟩
  | cons c u ih =>
    obtain ⟨init, l, h1, h2⟩ := ih
    by_cases hc : c = '\n'
    · exact ⟨[] :: init, l, by simp [splitNl, hc, h1], by simp [splitNl, hc, h2]⟩
    · cases init with
      | nil => exact ⟨[], c :: l, by simp [splitNl, hc, h1], by simp [splitNl, hc, h2]⟩
      | cons a init => exact ⟨(c :: a) :: init, l, by simp [splitNl, hc, h1], by simp [splitNl, hc, h2]⟩

/-- Text without newline in front belongs to the first line. -/
theorem splitNl_prefix {t : Str} (ht : '\n' ∉ t) {u x : Str} {xs : List Str} (h : splitNl u = x :: xs) :
    splitNl (t ++ u) = (t ++ x) :: xs := by
  induction t with
  | nil => simpa using h
  | cons c t ih =>
    simp only [List.mem_cons, not_or] at ht
    simp [splitNl, Ne.symm ht.1, ih ht.2]

theorem joinLines_snoc (i : Nat) (init : List Str) (l : Str) : ∃ p, joinLines i (init ++ [l]) = p ++ l := by
  induction init with
  | nil => exact ⟨[], rfl⟩
  | cons a init ih =>
    obtain ⟨p, hp⟩ := ih
    refine ⟨a ++ '\n' :: (spaces i ++ p), ?_⟩
    rw [List.cons_append, joinLines]
    · simp [hp]
    · simp

/-- A last line that ends in a visible character keeps the text from being trimmed. -/
theorem trimEnd_joinLines (i : Nat) (init : List Str) (l : Str) (hl : l ≠ []) (h : ∀ c ∈ l.getLast?, isWs c = false) :
    trimEnd (joinLines i (init ++ [l])) = joinLines i (init ++ [l]) := by
  obtain ⟨p, hp⟩ := joinLines_snoc i init l
  refine trimEnd_of_last ?_
  intro c hc
  rw [hp, List.getLast?_append] at hc
  cases hh : l.getLast? with
  | none => rw [List.getLast?_eq_none_iff] at hh; exact absurd hh hl
  | some d => rw [hh] at hc; exact h c (by simpa [hh] using hc)

theorem trim_eq_trimEnd {s : Str} (h : ∀ c ∈ s.head?, isWs c = false) : trim s = trimEnd s := by
  rw [trim, trimStart_of_head h]

theorem splitNl_javadoc (r : Str) : ∃ x xs, splitNl r = x :: xs ∧
    splitNl ("/**".toList ++ r) = ("/**".toList ++ x) :: xs := by
  cases hs : splitNl r with
  | nil => exact absurd hs (splitNl_ne_nil r)
  | cons x xs => exact ⟨x, xs, rfl, splitNl_prefix (by decide) hs⟩

/-- The lines of a JavaDoc comment. -/
theorem blockLines_javadoc (r : Str) : ∃ x xs ls, splitNl r = x :: xs ∧
    splitNl ("/**".toList ++ r) = ("/**".toList ++ x) :: xs ∧
    blockLines ("/**".toList ++ r) = "/**".toList :: javadocTail ls ∧
    (ls = xs ∧ trimEnd x = [] ∨ ls = trim (trimEnd x) :: xs ∧ trimEnd x ≠ []) := by
  obtain ⟨x, xs, h1, h2⟩ := splitNl_javadoc r
  obtain ⟨l, ls, h3, h4, h5⟩ := splitFirstLine_form x xs
  refine ⟨x, xs, ls, h1, h2, ?_, h5⟩
  have hp : "/**".toList.isPrefixOf ("/**".toList ++ r) = true := by
    rw [List.isPrefixOf_iff_prefix]; exact List.prefix_append _ _
  simp only [blockLines, hp, if_true, h2, h3, h4]

/-- The last rendered line of a comment text that does not end with white space ends in a visible character. -/
theorem blockLines_last {v : Str} (hv : v ≠ []) (ht : trimEnd v = v) : ∃ init l, blockLines v = init ++ [l] ∧ l ≠ [] ∧
    ∀ c ∈ l.getLast?, isWs c = false := by
  by_cases hj : "/**".toList.isPrefixOf v = true
  · obtain ⟨r, rfl⟩ : ∃ r, v = "/**".toList ++ r := by
      rw [List.isPrefixOf_iff_prefix] at hj; obtain ⟨r, hr⟩ := hj; exact ⟨r, hr.symm⟩
    obtain ⟨x, xs, ls, h1, h2, h3, _⟩ := blockLines_javadoc r
    rw [h3]
    cases ls with
    | nil => exact ⟨[], "/**".toList, rfl, by decide, by decide⟩
    | cons m ms =>
      obtain ⟨init, e, _⟩ := javadocTail_form (m :: ms) (by simp)
      exact ⟨"/**".toList :: init, " */".toList, by rw [e]; rfl, by decide, by decide⟩
  · obtain ⟨c, hc⟩ : ∃ c, v.getLast? = some c := by
      cases hl : v.getLast? with
      | none => rw [List.getLast?_eq_none_iff] at hl; exact absurd hl hv
      | some c => exact ⟨c, rfl⟩
    have hcw : isWs c = false := by
      obtain ⟨_, _, _, h3⟩ := trimEnd_split v
      rw [ht] at h3; exact h3 c hc
    obtain ⟨u, hu⟩ := List.getLast?_eq_some_iff.1 hc
    have hcn : '\n' ∉ [c] := by
      simp only [List.mem_singleton]; rintro rfl; revert hcw; decide
    obtain ⟨init, l, _, h2⟩ := splitNl_append_no_nl hcn u
    refine ⟨init.map trim, trim (l ++ [c]), ?_, ?_, (trimmed_trim _).2⟩
    · simp only [blockLines, if_neg hj]; rw [hu, h2]; simp
    · intro he
      have := dense_trim (l ++ [c])
      rw [he] at this
      simp [dense, hcw] at this

/-- Rendering a plain block comment again gives the same lines. -/
theorem blockLines_plain_stable (i : Nat) {v : Str} (h : "/*".toList.isPrefixOf v = true)
    (hj : "/**".toList.isPrefixOf v = false) (ht : trimEnd v = v) :
    blockLines (trimEnd (joinLines i (blockLines v))) = blockLines v := by
  obtain ⟨r, rfl⟩ : ∃ r, v = "/*".toList ++ r := by
    rw [List.isPrefixOf_iff_prefix] at h; obtain ⟨r, hr⟩ := h; exact ⟨r, hr.symm⟩
  obtain ⟨x, xs, hx⟩ : ∃ x xs, splitNl r = x :: xs := by
    cases hs : splitNl r with
    | nil => exact absurd hs (splitNl_ne_nil r)
    | cons x xs => exact ⟨x, xs, rfl⟩
  have hv : splitNl ("/*".toList ++ r) = ("/*".toList ++ x) :: xs := splitNl_prefix (by decide) hx
  have hb : blockLines ("/*".toList ++ r) = (("/*".toList ++ x) :: xs).map trim := by
    simp only [blockLines, hj, Bool.false_eq_true, if_false, hv]
  -- the last line ends in a visible character
  obtain ⟨init, l, hil, hne, hlast⟩ : ∃ init l, (("/*".toList ++ x) :: xs).map trim = init ++ [l] ∧ l ≠ [] ∧
      ∀ c ∈ l.getLast?, isWs c = false := by
    obtain ⟨c, hc⟩ : ∃ c, ("/*".toList ++ r).getLast? = some c := by
      cases hl : ("/*".toList ++ r).getLast? with
      | none => simp at hl
      | some c => exact ⟨c, rfl⟩
    have hcw : isWs c = false := by
      obtain ⟨_, _, _, h3⟩ := trimEnd_split ("/*".toList ++ r)
      rw [ht] at h3; exact h3 c hc
    obtain ⟨u, hu⟩ := List.getLast?_eq_some_iff.1 hc
    have hcn : '\n' ∉ [c] := by
      simp only [List.mem_singleton]; rintro rfl; revert hcw; decide
    obtain ⟨init, l, _, h2⟩ := splitNl_append_no_nl hcn u
    rw [← hu, hv] at h2
    refine ⟨init.map trim, trim (l ++ [c]), by rw [h2]; simp, ?_, (trimmed_trim _).2⟩
    intro he
    have := dense_trim (l ++ [c])
    rw [he] at this
    simp [dense, hcw] at this
  rw [hb, hil, trimEnd_joinLines i init l hne hlast, ← hil, List.map_cons]
  -- the first line
  have hfirst : trim ("/*".toList ++ x) = "/*".toList ++ trimEnd x := by
    rw [trim_eq_trimEnd (by simp; decide)]
    by_cases he : trimEnd x = []
    · rw [trimEnd_append_ws (trimEnd_eq_nil he), he]; decide
    · exact trimEnd_prefix _ he
  have hnl : ∀ y ∈ trim ("/*".toList ++ x) :: xs.map trim, '\n' ∉ y := by
    have := nl_blockLines ("/*".toList ++ r)
    rw [hb] at this; exact this
  have hnp : "/**".toList.isPrefixOf (joinLines i (trim ("/*".toList ++ x) :: xs.map trim)) = false := by
    cases hp : "/**".toList.isPrefixOf (joinLines i (trim ("/*".toList ++ x) :: xs.map trim)) with
    | false => rfl
    | true =>
      exfalso
      have hx0 : ∃ q, x = '*' :: q := by
        rw [hfirst] at hp
        have hq : ∃ q, joinLines i (("/*".toList ++ trimEnd x) :: xs.map trim) = "/*".toList ++ (trimEnd x ++ q) ∧
            ∀ c ∈ q.head?, c = '\n' := by
          cases xs with
          | nil => exact ⟨[], by simp [joinLines], by simp⟩
          | cons m ms => exact ⟨'\n' :: (spaces i ++ joinLines i (trim m :: ms.map trim)), by simp [joinLines], by simp⟩
        obtain ⟨q, hq, hq'⟩ := hq
        rw [hq] at hp
        obtain ⟨w, hw, _⟩ := trimEnd_split x
        cases he : trimEnd x with
        | nil =>
          rw [he] at hp
          cases q with
          | nil => exact absurd hp (by decide)
          | cons a q =>
            have := hq' a (by simp)
            subst this
            simp [List.isPrefixOf] at hp
        | cons a t =>
          rw [he] at hp hw
          refine ⟨t ++ w, ?_⟩
          rw [hw]
          simp [List.isPrefixOf] at hp
          simp [← hp]
      obtain ⟨q, rfl⟩ := hx0
      have hr : ∃ r', r = '*' :: r' := by
        cases r with
        | nil => simp [splitNl] at hx
        | cons a r =>
          simp only [splitNl] at hx
          split at hx
          · simp at hx
          · split at hx <;> simp at hx <;> exact ⟨r, by rw [hx.1.1]⟩
      obtain ⟨r', rfl⟩ := hr
      simp [List.isPrefixOf] at hj
  simp only [blockLines, hnp, Bool.false_eq_true, if_false]
  rw [splitNl_joinLines i _ _ hnl]
  simp only [List.map_cons, List.map_map, trim_trim]
  congr 1
  apply List.map_congr_left
  intro y _
  simp [Function.comp, trim_spaces_append, trim_trim]

/-- Rendering a JavaDoc comment again gives the same lines. -/
theorem blockLines_javadoc_stable (i : Nat) {v : Str} (hj : "/**".toList.isPrefixOf v = true) :
    blockLines (trimEnd (joinLines i (blockLines v))) = blockLines v := by
  obtain ⟨r, rfl⟩ : ∃ r, v = "/**".toList ++ r := by
    rw [List.isPrefixOf_iff_prefix] at hj; obtain ⟨r, hr⟩ := hj; exact ⟨r, hr.symm⟩
  obtain ⟨x, xs, ls, h1, h2, h3, _⟩ := blockLines_javadoc r
  have hnl := nl_blockLines ("/**".toList ++ r)
  rw [h3] at hnl ⊢
  cases ls with
  | nil => simp only [javadocTail, joinLines]; decide
  | cons m ms =>
    obtain ⟨init, e, hi⟩ := javadocTail_form (m :: ms) (by simp)
    rw [e] at hnl ⊢
    have ht : trimEnd (joinLines i ("/**".toList :: (init ++ [" */".toList]))) =
        joinLines i ("/**".toList :: (init ++ [" */".toList])) :=
      trimEnd_joinLines i ("/**".toList :: init) " */".toList (by decide) (by decide)
    rw [ht]
    obtain ⟨q, hq⟩ : ∃ q, joinLines i ("/**".toList :: (init ++ [" */".toList])) = "/**".toList ++ ('\n' :: q) := by
      rw [joinLines]
      · exact ⟨_, rfl⟩
      · simp
    have hs := splitNl_joinLines i "/**".toList (init ++ [" */".toList]) hnl
    have hp : "/**".toList.isPrefixOf (joinLines i ("/**".toList :: (init ++ [" */".toList]))) = true := by
      rw [List.isPrefixOf_iff_prefix, hq]; exact List.prefix_append _ _
    have hf : ∀ ls : List Str, splitFirstLine ("/**".toList :: ls) = "/**".toList :: ls := by
      intro ls
      simp only [splitFirstLine]
      rw [if_neg (by decide)]
    simp only [blockLines, hp, if_true, hs, hf]
    rw [javadocTail_fixed i init hi]
    rfl

/-! ### Visible characters of a rendered comment -/

theorem blockLines_plain_dense (i : Nat) {v : Str} (hj : "/**".toList.isPrefixOf v = false) :
    dense (joinLines i (blockLines v)) = dense v := by
  simp only [blockLines, hj, Bool.false_eq_true, if_false]
  rw [dense, joinLines_filter dense_ws, List.flatMap_map]
  have : (fun a => List.filter (fun c => !isWs c) (trim a)) = List.filter (fun c => !isWs c) := by
    funext a; exact dense_trim a
  rw [this, splitNl_flatMap (by decide)]
  rfl

theorem denseNoStar_javadocLine_false (l : Str) : (javadocLine false l).flatMap denseNoStar = denseNoStar l := by
  simp only [javadocLine, Bool.false_eq_true, if_false]
  have h2 : denseNoStar " * ".toList = [] := by decide
  split
  · rename_i h
    rw [← denseNoStar_trim l, h]; simp; rfl
  · split
    · rename_i a ha
      have hl : denseNoStar l = denseNoStar a := by
        rw [← denseNoStar_trim l]
        simp only [stripPrefix] at ha
        split at ha
        · rename_i hp
          cases ha
          rw [List.isPrefixOf_iff_prefix] at hp
          obtain ⟨t, ht⟩ := hp
          rw [← ht]; simp [denseNoStar]
        · cases ha
      split
      · rename_i h
        rw [hl, ← denseNoStar_trimStart, h]; simp; rfl
      · rw [hl]; simp only [List.flatMap_cons, List.flatMap_nil, List.append_nil, denseNoStar_append, h2]; simp
    · simp only [List.flatMap_cons, List.flatMap_nil, List.append_nil, denseNoStar_append, h2]; simp

theorem denseNoStar_javadocLine_true {l y : Str} (h : trim l = y ++ "*/".toList) :
    (javadocLine true l).flatMap denseNoStar = denseNoStar l := by
  have hs : stripSuffix "*/".toList (y ++ "*/".toList) = some y := by
    have : "*/".toList.isSuffixOf (y ++ "*/".toList) = true := by
      rw [List.isSuffixOf_iff_suffix]; exact List.suffix_append _ _
    simp only [stripSuffix, this, if_true, List.length_append, Nat.add_sub_cancel]
    simp
  have h1 : denseNoStar " */".toList = denseNoStar "*/".toList := by decide
  have h2 : denseNoStar " * ".toList = [] := by decide
  rw [← denseNoStar_trim l]
  simp only [javadocLine, h, hs, if_true]
  split
  · rename_i he
    rw [denseNoStar_append, ← denseNoStar_trim y, he]
    simp only [List.flatMap_cons, List.flatMap_nil, List.append_nil, h1]; rfl
  · simp only [List.flatMap_cons, List.flatMap_nil, List.append_nil, h1, denseNoStar_append, h2, denseNoStar_trim,
      List.nil_append]

theorem trim_suffix (x : Str) : ∃ y, trim (x ++ "*/".toList) = y ++ "*/".toList := by
  obtain ⟨w, h1, h2, h3⟩ := trimStart_split x
  have h4 : ∃ y, trimStart (x ++ "*/".toList) = y ++ "*/".toList := by
    rw [h1, List.append_assoc, trimStart_ws_append h2]
    refine ⟨trimStart x, trimStart_of_head ?_⟩
    intro c hc
    cases hx : trimStart x with
    | nil => rw [hx] at hc; simp at hc; subst hc; decide
    | cons a t => rw [hx] at hc h3; exact h3 c (by simpa using hc)
  obtain ⟨y, hy⟩ := h4
  refine ⟨y, ?_⟩
  rw [trim, hy]
  exact trimEnd_of_last (by simp; decide)

theorem denseNoStar_javadocTail (ls : List Str) (x : Str) :
    (javadocTail (ls ++ [x ++ "*/".toList])).flatMap denseNoStar = (ls ++ [x ++ "*/".toList]).flatMap denseNoStar := by
  induction ls with
  | nil =>
    obtain ⟨y, hy⟩ := trim_suffix x
    simp only [List.nil_append, javadocTail, denseNoStar_javadocLine_true hy]
    simp
  | cons l ls ih =>
    rw [List.cons_append, javadocTail]
    · rw [List.flatMap_append, denseNoStar_javadocLine_false, ih]; simp
    · simp

theorem blockLines_javadoc_dense (i : Nat) {v : Str} (hj : "/**".toList.isPrefixOf v = true)
    (he : "*/".toList.isSuffixOf v = true) : denseNoStar (joinLines i (blockLines v)) = denseNoStar v := by
  obtain ⟨r, rfl⟩ : ∃ r, v = "/**".toList ++ r := by
    rw [List.isPrefixOf_iff_prefix] at hj; obtain ⟨r, hr⟩ := hj; exact ⟨r, hr.symm⟩
  obtain ⟨x, xs, ls, h1, h2, h3, h4⟩ := blockLines_javadoc r
  have hj0 : denseNoStar (joinLines i (blockLines ("/**".toList ++ r))) =
      denseNoStar "/**".toList ++ (javadocTail ls).flatMap denseNoStar := by
    rw [h3, denseNoStar, joinLines_filter denseNoStar_ws]; rfl
  have hr : denseNoStar r = denseNoStar x ++ xs.flatMap denseNoStar := by
    have := splitNl_flatMap (q := fun c => !isWs c && c != '*') (by decide) r
    rw [h1] at this; exact this.symm
  have hls : ls.flatMap denseNoStar = denseNoStar x ++ xs.flatMap denseNoStar := by
    rcases h4 with ⟨rfl, hx⟩ | ⟨rfl, _⟩
    · have : denseNoStar x = [] := filter_ws_nil denseNoStar_ws (trimEnd_eq_nil hx)
      rw [this]; rfl
    · have : denseNoStar (trimEnd x) = denseNoStar x := filter_trimEnd denseNoStar_ws x
      simp [this]
  rw [hj0, denseNoStar_append, hr, ← hls]
  congr 1
  -- the last line ends with `*/`, except for `/**/`
  rw [List.isSuffixOf_iff_suffix] at he
  obtain ⟨u, hu⟩ := he
  rcases xs.eq_nil_or_concat with rfl | ⟨xs', l, rfl⟩
  · -- a single line
    have hrx : r = x := by
      have := splitNl_joinLines 0 x [] (fun y hy => nl_not_mem_line r y (by rw [h1]; exact hy))
      have h5 : ∀ s t : Str, splitNl s = [t] → s = t := by
        intro s
        induction s with
        | nil => intro t h; simp [splitNl] at h; exact h.symm
        | cons c s ih =>
          intro t h
          simp only [splitNl] at h
          split at h
          · have := splitNl_ne_nil s; simp at h; exact absurd h.2 this
          · split at h
            · rename_i hh; exact absurd hh (splitNl_ne_nil s)
            · rename_i a as hh
              simp at h
              rw [← h.1, ih a (by rw [hh, h.2])]
      exact h5 r x h1
    subst hrx
    by_cases hlen : 2 ≤ r.length
    · obtain ⟨y, rfl⟩ : ∃ y, r = y ++ "*/".toList := by
        have : "*/".toList <:+ "/**".toList ++ r := ⟨u, hu⟩
        have hs := List.suffix_of_suffix_length_le this (List.suffix_append "/**".toList r) hlen
        obtain ⟨y, hy⟩ := hs; exact ⟨y, hy.symm⟩
      have hne : trimEnd (y ++ "*/".toList) = y ++ "*/".toList := trimEnd_of_last (by simp; decide)
      rcases h4 with ⟨_, hx⟩ | ⟨rfl, _⟩
      · rw [hne] at hx; simp at hx
      · rw [hne]
        obtain ⟨z, hz⟩ := trim_suffix y
        rw [hz]
        exact denseNoStar_javadocTail [] z
    · have : r = "/".toList := by
        match r, hlen, hu with
        | [], _, hu => exfalso; have := congrArg List.getLast? hu; simp at this
        | [c], _, hu => have := congrArg List.getLast? hu; simp at this; simp [← this]
        | _ :: _ :: _, hlen, _ => simp at hlen
      subst this
      rcases h4 with ⟨_, hx⟩ | ⟨rfl, _⟩
      · exact absurd hx (by decide)
      · decide
  · -- several lines
    have hl : ∃ y, l = y ++ "*/".toList := by
      obtain ⟨init, l', _, h6⟩ := splitNl_append_no_nl (t := "*/".toList) (by decide) u
      rw [hu, h2] at h6
      have : ("/**".toList ++ x) :: xs'.concat l = (("/**".toList ++ x) :: xs') ++ [l] := by simp
      rw [this] at h6
      have := List.append_inj_right' h6 rfl
      exact ⟨l', by simpa using this⟩
    obtain ⟨y, rfl⟩ := hl
    rcases h4 with ⟨rfl, _⟩ | ⟨rfl, _⟩
    · rw [List.concat_eq_append]; exact denseNoStar_javadocTail xs' y
    · rw [List.concat_eq_append]; exact denseNoStar_javadocTail (trim (trimEnd x) :: xs') y

end Afmt
