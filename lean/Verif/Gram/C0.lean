import Verif.Gram.Tac

/-!
# The printed content of nodes: values and keywords
-/

namespace Afmt.Gram
open Prog New
set_option maxRecDepth 10000

/-! ### Letter case -/

theorem toLower_nat (c : Char) : c.toLower.toNat = if 65 ≤ c.toNat ∧ c.toNat ≤ 90 then c.toNat + 32 else c.toNat := by
  rcases c with ⟨v, hv⟩
  simp only [Char.toLower, Char.toNat, UInt32.le_iff_toNat_le, ge_iff_le, Char.reduceVal, UInt32.reduceToNat]
  split
  · rename_i h
    have h32 : ((97 : UInt32) - 65) = 32 := by decide
    simp only [h32, UInt32.toNat_add, UInt32.reduceToNat]
    omega
  · rfl

theorem toUpper_nat (c : Char) : c.toUpper.toNat = if 97 ≤ c.toNat ∧ c.toNat ≤ 122 then c.toNat - 32 else c.toNat := by
  rcases c with ⟨v, hv⟩
  simp only [Char.toUpper, Char.toNat, UInt32.le_iff_toNat_le, Char.reduceVal, UInt32.reduceToNat]
  split
  · rename_i h
    have h32 : ((65 : UInt32) - 97) = 4294967264 := by decide
    simp only [h32, UInt32.toNat_add, UInt32.reduceToNat]
    omega
  · rfl

theorem char_ext {a b : Char} (h : a.toNat = b.toNat) : a = b := Char.ext (UInt32.toNat_inj.1 h)

theorem lower_upper (c : Char) : c.toUpper.toLower = c.toLower := by
  apply char_ext
  simp only [toLower_nat, toUpper_nat]
  repeat' split
  all_goals omega

theorem lower_lower (c : Char) : c.toLower.toLower = c.toLower := by
  apply char_ext
  simp only [toLower_nat]
  repeat' split
  all_goals omega

theorem blank_iff (c : Char) : isBlank c = (decide (c.toNat = 32) || decide (c.toNat = 10)) := by
  have h : ∀ d : Char, (c == d) = decide (c.toNat = d.toNat) := by
    intro d
    rw [Bool.eq_iff_iff]
    simp only [beq_iff_eq, decide_eq_true_eq]
    exact ⟨fun e => by rw [e], char_ext⟩
  simp only [isBlank, h]; rfl

theorem blank_lower (c : Char) : isBlank c.toLower = isBlank c := by
  simp only [blank_iff, toLower_nat]
  split
  · have h1 : ¬ c.toNat + 32 = 32 := by omega
    have h2 : ¬ c.toNat + 32 = 10 := by omega
    have h3 : ¬ c.toNat = 32 := by omega
    have h4 : ¬ c.toNat = 10 := by omega
    simp only [h1, h2, h3, h4]
  · rfl

theorem blank_upper (c : Char) : isBlank c.toUpper = isBlank c := by
  rw [← blank_lower, lower_upper, blank_lower]

theorem ink_map {f : Char → Char} (hf : ∀ c, isBlank (f c) = isBlank c) (s : Str) : ink (s.map f) = (ink s).map f := by
  simp only [ink, List.filter_map, Function.comp_def, hf]

theorem word_iff (c : Char) : wordChar c = (decide (65 ≤ c.toNat ∧ c.toNat ≤ 90) || decide (97 ≤ c.toNat ∧ c.toNat ≤ 122) ||
    decide (48 ≤ c.toNat ∧ c.toNat ≤ 57) || decide (c.toNat = 95) || decide (c.toNat = 36)) := by
  have h : ∀ d : Char, (c == d) = decide (c.toNat = d.toNat) := by
    intro d
    rw [Bool.eq_iff_iff]
    simp only [beq_iff_eq, decide_eq_true_eq]
    exact ⟨fun e => by rw [e], char_ext⟩
  rw [Bool.eq_iff_iff]
  simp only [wordChar, Char.isAlphanum, Char.isAlpha, Char.isUpper, Char.isLower, Char.isDigit, h, Bool.or_eq_true, Bool.and_eq_true,
    decide_eq_true_eq, ge_iff_le, UInt32.le_iff_toNat_le]
  rfl

theorem word_lower (c : Char) : wordChar c.toLower = wordChar c := by
  rw [Bool.eq_iff_iff]
  simp only [word_iff, toLower_nat, Bool.or_eq_true, decide_eq_true_eq]
  split <;> omega

theorem word_upper (c : Char) : wordChar c.toUpper = wordChar c := by
  rw [← word_lower, lower_upper, word_lower]

theorem letters_map {f : Char → Char} (hf : ∀ c, isBlank (f c) = isBlank c) (hw : ∀ c, wordChar (f c) = wordChar c) (s : Str) :
    ∀ w, letters w (s.map f) = (letters w s).map (fun x => (f x.1, x.2)) := by
  induction s with
  | nil => intro w; rfl
  | cons c s ih =>
    intro w
    rw [List.map_cons, letters, letters, hf, hw]
    cases isBlank c with
    | true => simpa using ih false
    | false => simpa using ih (wordChar c)

theorem fold_letters_lower (s : Str) : foldL (letters false (Prog.New.toLower s)) = foldL (letters false s) := by
  rw [Prog.New.toLower, letters_map blank_lower word_lower, foldL, List.map_map]
  exact List.map_congr_left (fun c _ => by rw [Function.comp, lower_lower])

theorem fold_letters_upper (s : Str) : foldL (letters false (Prog.New.toUpper s)) = foldL (letters false s) := by
  rw [Prog.New.toUpper, letters_map blank_upper word_upper, foldL, List.map_map]
  exact List.map_congr_left (fun c _ => by rw [Function.comp, lower_upper])

theorem letters_space (s : Str) : ∀ w, letters w (s ++ [' ']) = letters w s := by
  induction s with
  | nil => intro w; rfl
  | cons c s ih =>
    intro w
    rw [List.cons_append, letters, letters]
    cases isBlank c with
    | true => simpa using ih false
    | false => simpa using ih (wordChar c)

theorem SameL.spelled {n : Node} (h : spelled n = true) : SameL (letters false n.text) (lex n) := by
  simp only [Gram.spelled, Bool.and_eq_true, beq_iff_eq] at h
  exact SameL.text _ _ h.2

theorem SameL.cased {n : Node} (h : Gram.spelled n = true) (hc : ∀ e ∈ lex n, e.1 = true) {w : Str}
    (hw : foldL (letters false w) = foldL (letters false n.text)) : SameL (letters false w) (lex n) := by
  simp only [Gram.spelled, Bool.and_eq_true, beq_iff_eq] at h
  exact SameL.folded _ _ (by rw [h.2, hw]) hc

theorem plain_kids : ∀ {n : Node}, plain n = true → ∀ c ∈ n.children, c.extra = false
  | .mk _ _ _ _ _ _ _ _ _ _ _ cs, h => by
    rw [plain, Bool.and_eq_true] at h
    have : ∀ ns, plains ns = true → ∀ c ∈ ns, c.extra = false := by
      intro ns
      induction ns with
      | nil => intro _ c hc; cases hc
      | cons a ns ih =>
        intro hp c hc
        rw [plains, Bool.and_eq_true] at hp
        rcases List.mem_cons.1 hc with rfl | hc
        · cases c with
          | mk => rw [plain, Bool.and_eq_true] at hp; simpa [Node.extra] using hp.1.1
        · exact ih hp.2 c hc
    exact this cs h.2

theorem calm_value {n : Node} (h : spelled n = true) : Calm n := by
  simp only [spelled, Bool.and_eq_true] at h
  exact Or.inl (plain_kids h.1.1)

section
variable {root : Node} {cm : CMap} {cfg : Cfg} {bad : Panic → Prop} {rec : Rec} {l : Loc} {m : Nat}

theorem spelled_noBody {n : Node} (h : spelled n = true) : noBody n = true := by
  simp only [spelled, Bool.and_eq_true] at h; exact h.1.2

theorem cont_split (cm : CMap) {n : Node} (h : n.extra = false) (ha : n.associable = true) (hs : noBody n = true) :
    ∃ K, cont cm n = bcom cm n.kind n.id ++ K ++ acom cm n.kind n.id ∧ codeC K = lift (lex n) := by
  have hc := codeC_cont cm n hs
  cases n with
  | mk id kind named extra err field sr er sb eb text children =>
    have he : extra = false := h
    have hb : (named || isAssociableUnnamedKind kind) = true := by
      simp only [Node.associable, Bool.and_eq_true] at ha; exact ha.2
    rw [cont.eq_def] at hc ⊢
    simp only [he, Bool.false_eq_true, if_false, hb, if_true] at hc ⊢
    refine ⟨_, rfl, ?_⟩
    rw [codeC_append, codeC_append, codeC_bcom, codeC_acom, List.nil_append, List.append_nil] at hc
    exact hc

theorem sx_words {w : Str} {K : Cont} {k : List (Bool × Letter)} (hk : codeC K = lift k) (h : SameL (letters false w) k) :
    Sx (items cm (.txt w)) K :=
  sx_leave (sx_txt h) (by
    have e : inlC k = (codeC K).map .inl := by rw [hk]; rfl
    rw [e]
    exact codeC_sub K) (by rw [codeC_inl, hk])

/-- A node printed as a text. -/
theorem sx_value (C : Ctx root cm cfg bad rec l m) (hs : spelled l.node = true) {w : Str} (hw : SameL (letters false w) (lex l.node)) :
    Sx (items cm (bwcp l [.txt w])) (full cm l) := by
  obtain ⟨b, hb1, hb2⟩ := C.reach.bucket C.good
  have ha := C.reach.assoc C.good
  obtain ⟨K, hK, hc⟩ := cont_split cm (by simp only [Node.associable, Bool.and_eq_true, Bool.not_eq_true'] at ha; exact ha.1) ha (spelled_noBody hs)
  rw [full, hK]
  refine sx_wrapped hb1 (C.reach.calm C.good (calm_value hs) hb1) hb2 _ ?_ (punct_opt C.good C.reach)
  rw [itemss_one]
  exact sx_words hc hw

/-- A node printed as a text without its bucket and without punctuation. -/
theorem sx_text {x : Loc} (hs : spelled x.node = true) (hp : pcont cm x = []) {w : Str} (hw : SameL (letters false w) (lex x.node)) :
    Sx (items cm (.txt w)) (full cm x) := by
  rw [full, hp, List.append_nil]
  exact sx_words (codeC_cont cm _ (spelled_noBody hs)) hw

theorem core_leaf {c : Cls} (hs : sub c = []) {n : Node} (h : conf n (.cls c) = true) (hp : prod (.cls c) = .value) :
    spelled n = true ∧ (NT.cls c = .cls .valueNode ∨ NT.cls c = .securityWho ∨ ∀ e ∈ lex n, e.1 = true) := by
  have := conf_value h (by rw [core_self hs]; exact hp)
  rwa [core_self hs] at this

theorem valueNode_sx (C : Ctx root cm cfg bad rec l m) (h : conf l.node (.cls .valueNode) = true) :
    W bad (New.valueNode l) (fun p => Sx (items cm p) (full cm l)) := by
  have hs := (core_leaf rfl h rfl).1
  exact sx_value C hs (SameL.spelled hs)

theorem valueNodeLowerCase_sx (C : Ctx root cm cfg bad rec l m) (h : conf l.node (.cls .valueNodeLowerCase) = true) :
    W bad (New.valueNodeLowerCase l) (fun p => Sx (items cm p) (full cm l)) := by
  have hs := core_leaf rfl h rfl
  refine sx_value C hs.1 (SameL.cased hs.1 ?_ (fold_letters_lower _))
  rcases hs.2 with h | h | h
  · cases h
  · cases h
  · exact h

theorem valueNodeUpperCase_sx (C : Ctx root cm cfg bad rec l m) (h : conf l.node (.cls .valueNodeUpperCase) = true) :
    W bad (New.valueNodeUpperCase l) (fun p => Sx (items cm p) (full cm l)) := by
  have hs := core_leaf rfl h rfl
  refine sx_value C hs.1 (SameL.cased hs.1 ?_ (fold_letters_upper _))
  rcases hs.2 with h | h | h
  · cases h
  · cases h
  · exact h

/-- A keyword with its comments and punctuation. -/
theorem word_sx (C : Ctx root cm cfg bad rec l m) {c : Cls} {k w : String} (h : conf l.node (.cls c) = true)
    (hp : prod (.cls c) = .words [(k, w)]) (hs : sub c = []) :
    W bad (assertCheck l k >>= fun _ => .ok (bwcp l [t w])) (fun p => Sx (items cm p) (full cm l)) := by
  obtain ⟨h1, h2, e, he, hk, hf⟩ := cls_words h hp hs
  cases List.mem_singleton.1 he
  rw [assertCheck, ← hk]
  simp only [beq_self_eq_true, if_true]
  exact sx_value C h1 (SameL.cased h1 h2 hf.symm)

theorem boolType_sx (C : Ctx root cm cfg bad rec l m) (h : conf l.node (.cls .boolType) = true) :
    W bad (New.boolType l) (fun p => Sx (items cm p) (full cm l)) := word_sx C h rfl rfl
theorem super_sx (C : Ctx root cm cfg bad rec l m) (h : conf l.node (.cls .super) = true) :
    W bad (New.super l) (fun p => Sx (items cm p) (full cm l)) := word_sx C h rfl rfl
theorem this_sx (C : Ctx root cm cfg bad rec l m) (h : conf l.node (.cls .this) = true) :
    W bad (New.this l) (fun p => Sx (items cm p) (full cm l)) := word_sx C h rfl rfl
theorem safeNavigationOperator_sx (C : Ctx root cm cfg bad rec l m) (h : conf l.node (.cls .safeNavigationOperator) = true) :
    W bad (New.safeNavigationOperator l) (fun p => Sx (items cm p) (full cm l)) := word_sx C h rfl rfl

theorem find_word : ∀ {tbl : List (String × String)} {e : String × String}, (tbl.map (·.1)).Nodup → e ∈ tbl →
    tbl.find? (fun x => x.1 == e.1) = some e
  | x :: tbl, e, hn, he => by
    rw [List.map_cons, List.nodup_cons] at hn
    rcases List.mem_cons.1 he with rfl | he
    · simp
    · rw [List.find?_cons]
      have : (x.1 == e.1) = false := by
        cases hb : x.1 == e.1 with
        | false => rfl
        | true => exact absurd (by rw [beq_iff_eq.1 hb]; exact List.mem_map_of_mem he) hn.1
      rw [this]
      exact find_word hn.2 he

/-- A keyword without its comments. -/
theorem keyword_sx (C : Ctx root cm cfg bad rec l m) {c : Cls} {tbl : List (String × String)} (h : conf l.node (.cls c) = true)
    (hp : prod (.cls c) = .words tbl) (hs : sub c = []) (hn : (tbl.map (·.1)).Nodup)
    (hq : tbl.all (fun e => quietKinds.contains e.1) = true) :
    W bad (keyword tbl l) (fun p => Sx (items cm p) (full cm l)) := by
  obtain ⟨h1, h2, e, he, hk, hf⟩ := cls_words h hp hs
  rw [keyword, ← hk, find_word hn he]
  refine sx_text h1 (C.reach.quiet cm ?_) (SameL.cased h1 h2 hf.symm)
  rw [← hk]
  exact List.all_eq_true.1 hq e he

theorem modifierKind_sx (C : Ctx root cm cfg bad rec l m) (h : conf l.node (.cls .modifierKind) = true) :
    W bad (New.modifierKind l) (fun p => Sx (items cm p) (full cm l)) := keyword_sx C h rfl rfl (by decide) (by decide)
theorem triggerEventVariant_sx (C : Ctx root cm cfg bad rec l m) (h : conf l.node (.cls .triggerEventVariant) = true) :
    W bad (New.triggerEventVariant l) (fun p => Sx (items cm p) (full cm l)) := keyword_sx C h rfl rfl (by decide) (by decide)
theorem dmlTypeVariant_sx (C : Ctx root cm cfg bad rec l m) (h : conf l.node (.cls .dmlTypeVariant) = true) :
    W bad (New.dmlTypeVariant l) (fun p => Sx (items cm p) (full cm l)) := by
  obtain ⟨h1, h2, e, he, hk, hf⟩ := cls_words h rfl rfl
  have h3 : dmlWords.all (fun e => e.1 == e.2 && quietKinds.contains e.1 &&
    ["insert", "update", "delete", "undelete", "merge", "upsert"].contains e.1) = true := by decide
  have h4 := List.all_eq_true.1 h3 e he
  simp only [Bool.and_eq_true, beq_iff_eq] at h4
  rw [New.dmlTypeVariant, if_pos (by rw [← hk]; exact List.contains_iff_mem.1 h4.2), ← hk]
  refine sx_text h1 (C.reach.quiet cm (by rw [← hk]; exact h4.1.2)) (SameL.cased h1 h2 ?_)
  rw [hf, h4.1.1]

theorem usingSearch_sx (C : Ctx root cm cfg bad rec l m) (h : conf l.node (.cls .usingSearch) = true) :
    W bad (New.usingSearch l) (fun p => Sx (items cm p) (full cm l)) := by
  obtain ⟨h1, h2, e, he, hk, hf⟩ := cls_words h rfl rfl
  have hq : quietKinds.contains l.kind = true := by
    rw [← hk]
    exact List.all_eq_true.1 (by decide : (([("using_phrase_search", "PHRASE SEARCH"), ("using_advanced_search", "ADVANCED SEARCH")] :
      List (String × String)).all (fun e => quietKinds.contains e.1)) = true) e he
  rw [New.usingSearch, ← hk]
  rcases List.mem_cons.1 he with rfl | he
  · rw [if_pos rfl]
    exact sx_text h1 (C.reach.quiet cm hq) (SameL.cased h1 h2 hf.symm)
  · cases List.mem_singleton.1 he
    rw [if_neg (by decide), if_pos rfl]
    exact sx_text h1 (C.reach.quiet cm hq) (SameL.cased h1 h2 hf.symm)

end
end Afmt.Gram
