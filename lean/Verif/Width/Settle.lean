import Verif.Width.Printer

/-!
# The layout at large widths

From some width on the printer decides everything as if lines could be arbitrarily long, and then it writes no more lines
than at any other width.
-/

namespace Afmt
namespace Width

open Classical in
mutual
/-- The operations carried out if lines may be arbitrarily long. -/
noncomputable def trI : Doc → Nat → Bool → List Chunk → List Op
  | .newline, i, _, _ => [.pend i]
  | .newlineWithNoIndent, _, _, _ => [.bare]
  | .softline, i, fl, _ => if fl then [.space] else [.pend i]
  | .maybeline, i, fl, _ => if fl then [] else [.pend i]
  | .forceBreak, _, _, _ => []
  | .text s n, _, _, _ => [.text s n]
  | .flat d, i, _, rest => trI d i true rest
  | .indent n d, i, fl, rest => trI d (i + n) fl rest
  | .dedent n d, i, fl, rest => trI d (i - n) fl rest
  | .concat ds, i, fl, rest => trIs ds i fl rest
  | .choice x y, i, fl, rest =>
    .flush :: (if fl then trI x i fl rest
      else if ∃ r, fitsS r { doc := x, indent := i, flat := fl } rest = true then trI x i fl rest
      else trI y i fl rest)
noncomputable def trIs : List Doc → Nat → Bool → List Chunk → List Op
  | [], _, _, _ => []
  | d :: ds, i, fl, rest =>
    trI d i fl (ds.map (fun d => { doc := d, indent := i, flat := fl }) ++ rest) ++ trIs ds i fl rest
end

mutual
/-- From some width on the printer does just that. -/
theorem tr_settles : ∀ (d : Doc) (i : Nat) (fl : Bool) (rest : List Chunk) (st : PSt),
    ∃ W, ∀ w, W ≤ w → tr w d i fl rest st = trI d i fl rest
  | .newline, i, fl, rest, st | .newlineWithNoIndent, i, fl, rest, st | .softline, i, fl, rest, st | .maybeline, i, fl, rest, st
  | .forceBreak, i, fl, rest, st | .text _ _, i, fl, rest, st => ⟨0, fun w _ => by simp only [tr, trI]⟩
  | .flat d, i, fl, rest, st => by simpa only [tr, trI] using tr_settles d i true rest st
  | .indent n d, i, fl, rest, st => by simpa only [tr, trI] using tr_settles d (i + n) fl rest st
  | .dedent n d, i, fl, rest, st => by simpa only [tr, trI] using tr_settles d (i - n) fl rest st
  | .concat ds, i, fl, rest, st => by simpa only [tr, trI] using trs_settles ds i fl rest st
  | .choice x y, i, fl, rest, st => by
    obtain ⟨W1, h1⟩ := tr_settles x i fl rest st.flush
    obtain ⟨W2, h2⟩ := tr_settles y i fl rest st.flush
    simp only [tr, trI]
    cases fl with
    | true => exact ⟨W1, fun w hw => by rw [if_pos rfl, if_pos rfl, h1 w hw]⟩
    | false =>
      by_cases hr : ∃ r, fitsS r { doc := x, indent := i, flat := false } rest = true
      · obtain ⟨r, hr'⟩ := hr
        refine ⟨max W1 (r + st.flush.col), fun w hw => ?_⟩
        have : fitsS (w - st.flush.col) { doc := x, indent := i, flat := false } rest = true := fitsS_mono (by omega) hr'
        simp only [Bool.false_eq_true, if_false]
        rw [if_pos this, if_pos ⟨r, hr'⟩, h1 w (by omega)]
      · refine ⟨W2, fun w hw => ?_⟩
        simp only [Bool.false_eq_true, if_false]
        rw [if_neg (fun h => hr ⟨_, h⟩), if_neg hr, h2 w hw]
theorem trs_settles : ∀ (ds : List Doc) (i : Nat) (fl : Bool) (rest : List Chunk) (st : PSt),
    ∃ W, ∀ w, W ≤ w → trs w ds i fl rest st = trIs ds i fl rest
  | [], i, fl, rest, st => ⟨0, fun w _ => by simp only [trs, trIs]⟩
  | d :: ds, i, fl, rest, st => by
    obtain ⟨W1, h1⟩ := tr_settles d i fl (ds.map (fun d => { doc := d, indent := i, flat := fl }) ++ rest) st
    obtain ⟨W2, h2⟩ := trs_settles ds i fl rest
      (runOps (trI d i fl (ds.map (fun d => { doc := d, indent := i, flat := fl }) ++ rest)) st)
    refine ⟨max W1 W2, fun w hw => ?_⟩
    rw [trs, trIs, pr_tr, h1 w (by omega), h2 w (by omega)]
end

/-- What is written if lines may be arbitrarily long. -/
noncomputable def layoutI (d : Doc) : Str := (runOps (trI d 0 false []) PSt.init).flush.out

theorem layout_settles (d : Doc) : ∃ W, ∀ w, W ≤ w → layout w d = layoutI d := by
  obtain ⟨W, h⟩ := tr_settles d 0 false [] PSt.init
  exact ⟨W, fun w hw => by rw [layout, pr_tr, h w hw, layoutI]⟩

/-! ### Fewer line breaks -/

/-- The second list has pending line breaks where the first has blanks or nothing. -/
inductive Fewer : List Op → List Op → Prop
  | nil : Fewer [] []
  | same (o) {a b} : Fewer a b → Fewer (o :: a) (o :: b)
  | space (i) {a b} : Fewer a b → Fewer (.space :: a) (.pend i :: b)
  | none (i) {a b} : Fewer a b → Fewer a (.pend i :: b)

theorem Fewer.append {a b c d : List Op} (h : Fewer a b) (h' : Fewer c d) : Fewer (a ++ c) (b ++ d) := by
  induction h with
  | nil => exact h'
  | same o _ ih => exact .same o ih
  | space i _ ih => exact .space i ih
  | none i _ ih => exact .none i ih

/-- Line breaks written. -/
def breaks (st : PSt) : Nat := st.out.count '\n'
/-- Line breaks written or pending. -/
def due (st : PSt) : Nat := st.out.count '\n' + (if st.pend = none then 0 else 1)

theorem breaks_flush (st : PSt) : breaks st.flush = due st := by
  unfold breaks due PSt.flush
  cases h : st.pend with
  | none => simp
  | some i =>
    simp only [List.count_append, List.count_cons]
    simp [spaces, List.count_replicate]

theorem due_flush (st : PSt) : due st.flush = due st := by
  rw [← breaks_flush st]
  unfold due breaks
  rw [show st.flush.pend = none by unfold PSt.flush; cases h : st.pend <;> simp [h]]
  simp

/-- The first state has written no more line breaks than the second, and will not by writing the pending one. -/
def Le (a b : PSt) : Prop := breaks a ≤ breaks b ∧ due a ≤ due b

theorem putText_nl (st : PSt) (s : Str) (n : Nat) : breaks (st.putText s n) = breaks st + s.count '\n' ∧
    due (st.putText s n) = due st + s.count '\n' := by
  unfold breaks due PSt.putText
  split
  · rename_i h; rw [h.1]; simp
  · simp only [List.count_append]; exact ⟨trivial, by omega⟩

theorem putSpace_nl (st : PSt) : breaks st.putSpace = breaks st ∧ due st.putSpace = due st := by
  unfold breaks due PSt.putSpace
  simp [List.count_append]

theorem due_pend (st : PSt) (i : Nat) : due st ≤ due { st with pend := some i } := by
  unfold due
  split <;> simp

theorem run_le {a b : List Op} (h : Fewer a b) : ∀ {s t : PSt}, Le s t → Le (runOps a s) (runOps b t) := by
  induction h with
  | nil => intro s t h; exact h
  | same o _ ih =>
    intro s t h
    refine ih ?_
    cases o with
    | pend i => exact ⟨h.1, Nat.add_le_add_right h.1 1⟩
    | bare =>
      obtain ⟨h1, -⟩ := h
      unfold Le breaks due at *
      simp only [Op.run, PSt.bareNewline, List.count_append, if_true]
      exact ⟨by omega, by omega⟩
    | space =>
      show Le s.putSpace t.putSpace
      unfold Le
      rw [(putSpace_nl s).1, (putSpace_nl s).2, (putSpace_nl t).1, (putSpace_nl t).2]
      exact h
    | text x n =>
      have h1 := putText_nl s.flush x n
      have h2 := putText_nl t.flush x n
      simp only [breaks_flush, due_flush] at h1 h2
      show Le (s.flush.putText x n) (t.flush.putText x n)
      unfold Le
      rw [h1.1, h1.2, h2.1, h2.2]
      have := h.2
      exact ⟨by omega, by omega⟩
    | flush =>
      show Le s.flush t.flush
      unfold Le
      rw [breaks_flush, breaks_flush, due_flush, due_flush]
      exact ⟨h.2, h.2⟩
  | space i _ ih =>
    intro s t h
    refine ih ?_
    show Le s.putSpace { t with pend := some i }
    unfold Le
    rw [(putSpace_nl s).1, (putSpace_nl s).2]
    exact ⟨h.1, Nat.le_trans h.2 (due_pend t i)⟩
  | none i _ ih =>
    intro s t h
    refine ih ?_
    exact ⟨h.1, Nat.le_trans h.2 (due_pend t i)⟩

mutual
theorem flat_fewer (w : Nat) : ∀ (d : Doc), d.GroupOnly → ∀ (i : Nat) (fl : Bool) (r r' : List Chunk) (st : PSt),
    Fewer (trI d i true r) (tr w d i fl r' st)
  | .newline, _, i, fl, r, r', st => .same _ .nil
  | .newlineWithNoIndent, _, i, fl, r, r', st => .same _ .nil
  | .softline, _, i, fl, r, r', st => by
    cases fl
    · exact .space i .nil
    · exact .same _ .nil
  | .maybeline, _, i, fl, r, r', st => by
    cases fl
    · exact .none i .nil
    · exact .nil
  | .forceBreak, _, i, fl, r, r', st => .nil
  | .text s n, _, i, fl, r, r', st => .same _ .nil
  | .flat d, h, i, fl, r, r', st => by simpa only [tr, trI] using flat_fewer w d h i true r r' st
  | .indent n d, h, i, fl, r, r', st => by simpa only [tr, trI] using flat_fewer w d h (i + n) fl r r' st
  | .dedent n d, h, i, fl, r, r', st => by simpa only [tr, trI] using flat_fewer w d h (i - n) fl r r' st
  | .concat ds, h, i, fl, r, r', st => by simpa only [tr, trI] using flats_fewer w ds h i fl r r' st
  | .choice x y, h, i, fl, r, r', st => by
    obtain ⟨rfl, h⟩ := h
    simp only [tr, trI, if_true]
    refine .same _ ?_
    split
    · exact flat_fewer w y h i true r r' _
    · split
      · exact flat_fewer w y h i true r r' _
      · exact flat_fewer w y h i fl r r' _
theorem flats_fewer (w : Nat) : ∀ (ds : List Doc), Doc.GroupOnlys ds → ∀ (i : Nat) (fl : Bool) (r r' : List Chunk) (st : PSt),
    Fewer (trIs ds i true r) (trs w ds i fl r' st)
  | [], _, i, fl, r, r', st => by rw [trs, trIs]; exact .nil
  | d :: ds, h, i, fl, r, r', st => by
    rw [trs, trIs]
    exact (flat_fewer w d h.1 i fl _ _ st).append (flats_fewer w ds h.2 i fl _ _ _)
end

mutual
/-- Every line break written if lines may be arbitrarily long is also written at width `w`. -/
theorem tr_fewer (w : Nat) : ∀ (d : Doc), d.GroupOnly → ∀ (i : Nat) (fl : Bool) (r : List Chunk) (st : PSt),
    Fewer (trI d i fl r) (tr w d i fl r st)
  | .newline, _, i, fl, r, st => .same _ .nil
  | .newlineWithNoIndent, _, i, fl, r, st => .same _ .nil
  | .softline, _, i, fl, r, st => by cases fl <;> exact .same _ .nil
  | .maybeline, _, i, fl, r, st => by
    cases fl
    · exact .same _ .nil
    · exact .nil
  | .forceBreak, _, i, fl, r, st => .nil
  | .text s n, _, i, fl, r, st => .same _ .nil
  | .flat d, h, i, fl, r, st => by simpa only [tr, trI] using flat_fewer w d h i true r r st
  | .indent n d, h, i, fl, r, st => by simpa only [tr, trI] using tr_fewer w d h (i + n) fl r st
  | .dedent n d, h, i, fl, r, st => by simpa only [tr, trI] using tr_fewer w d h (i - n) fl r st
  | .concat ds, h, i, fl, r, st => by simpa only [tr, trI] using trs_fewer w ds h i fl r st
  | .choice x y, h, i, true, r, st => flat_fewer w (.choice x y) h i true r r st
  | .choice x y, h, i, false, r, st => by
    obtain ⟨rfl, h⟩ := h
    simp only [tr, trI, Bool.false_eq_true, if_false]
    refine .same _ ?_
    split
    · rename_i hf
      split
      · exact flat_fewer w y h i true r r _
      · exact flat_fewer w y h i false r r _
    · rename_i hf
      rw [if_neg (fun h => hf ⟨_, h⟩)]
      exact tr_fewer w y h i false r _
theorem trs_fewer (w : Nat) : ∀ (ds : List Doc), Doc.GroupOnlys ds → ∀ (i : Nat) (fl : Bool) (r : List Chunk) (st : PSt),
    Fewer (trIs ds i fl r) (trs w ds i fl r st)
  | [], _, i, fl, r, st => by rw [trs, trIs]; exact .nil
  | d :: ds, h, i, fl, r, st => by
    rw [trs, trIs]
    exact (tr_fewer w d h.1 i fl _ st).append (trs_fewer w ds h.2 i fl _ _)
end

/-- No width gives fewer line breaks. -/
theorem layout_fewer (w : Nat) {d : Doc} (h : d.GroupOnly) : (layoutI d).count '\n' ≤ (layout w d).count '\n' := by
  have := run_le (tr_fewer w d h 0 false [] PSt.init) (s := PSt.init) (t := PSt.init) ⟨Nat.le_refl _, Nat.le_refl _⟩
  rw [layoutI, layout, pr_tr]
  have h1 := breaks_flush (runOps (trI d 0 false []) PSt.init)
  have h2 := breaks_flush (runOps (tr w d 0 false [] PSt.init) PSt.init)
  unfold breaks at h1 h2
  rw [h1, h2]
  exact this.2

mutual
/-- What is kept on one line is the same at every width. -/
theorem flat_tr (w : Nat) : ∀ (d : Doc), d.GroupOnly → ∀ (i : Nat) (r r' : List Chunk) (st : PSt), tr w d i true r st = trI d i true r'
  | .newline, _, i, r, r', st | .newlineWithNoIndent, _, i, r, r', st | .softline, _, i, r, r', st | .maybeline, _, i, r, r', st
  | .forceBreak, _, i, r, r', st | .text _ _, _, i, r, r', st => by simp only [tr, trI]
  | .flat d, h, i, r, r', st => by simpa only [tr, trI] using flat_tr w d h i r r' st
  | .indent n d, h, i, r, r', st => by simpa only [tr, trI] using flat_tr w d h (i + n) r r' st
  | .dedent n d, h, i, r, r', st => by simpa only [tr, trI] using flat_tr w d h (i - n) r r' st
  | .concat ds, h, i, r, r', st => by simpa only [tr, trI] using flats_tr w ds h i r r' st
  | .choice x y, h, i, r, r', st => by
    obtain ⟨rfl, h⟩ := h
    simp only [tr, trI, if_true]
    rw [flat_tr w y h i r r' _]
theorem flats_tr (w : Nat) : ∀ (ds : List Doc), Doc.GroupOnlys ds → ∀ (i : Nat) (r r' : List Chunk) (st : PSt), trs w ds i true r st = trIs ds i true r'
  | [], _, i, r, r', st => by rw [trs, trIs]
  | d :: ds, h, i, r, r', st => by
    rw [trs, trIs, flat_tr w d h.1, flats_tr w ds h.2]
end

mutual
/-- Every line break written at width `w` is also written at width 0. -/
theorem tr_most (w : Nat) : ∀ (d : Doc), d.GroupOnly → ∀ (i : Nat) (fl : Bool) (r : List Chunk) (st st' : PSt),
    Fewer (tr w d i fl r st) (tr 0 d i fl r st')
  | .newline, _, i, fl, r, st, st' => .same _ .nil
  | .newlineWithNoIndent, _, i, fl, r, st, st' => .same _ .nil
  | .softline, _, i, fl, r, st, st' => by cases fl <;> exact .same _ .nil
  | .maybeline, _, i, fl, r, st, st' => by
    cases fl
    · exact .same _ .nil
    · exact .nil
  | .forceBreak, _, i, fl, r, st, st' => .nil
  | .text s n, _, i, fl, r, st, st' => .same _ .nil
  | .flat d, h, i, fl, r, st, st' => by simpa only [tr] using tr_most w d h i true r st st'
  | .indent n d, h, i, fl, r, st, st' => by simpa only [tr] using tr_most w d h (i + n) fl r st st'
  | .dedent n d, h, i, fl, r, st, st' => by simpa only [tr] using tr_most w d h (i - n) fl r st st'
  | .concat ds, h, i, fl, r, st, st' => by simpa only [tr] using trs_most w ds h i fl r st st'
  | .choice x y, h, i, true, r, st, st' => by
    rw [flat_tr w _ h i r r st]
    exact flat_fewer 0 _ h i true r r st'
  | .choice x y, h, i, false, r, st, st' => by
    obtain ⟨rfl, h⟩ := h
    simp only [tr, Bool.false_eq_true, if_false]
    refine .same _ ?_
    split
    · rw [flat_tr w y h i r r]
      split
      · exact flat_fewer 0 y h i true r r _
      · exact flat_fewer 0 y h i false r r _
    · rename_i hf
      rw [if_neg (fun h0 => hf (fitsS_mono (by omega) h0))]
      exact tr_most w y h i false r _ _
theorem trs_most (w : Nat) : ∀ (ds : List Doc), Doc.GroupOnlys ds → ∀ (i : Nat) (fl : Bool) (r : List Chunk) (st st' : PSt),
    Fewer (trs w ds i fl r st) (trs 0 ds i fl r st')
  | [], _, i, fl, r, st, st' => by rw [trs, trs]; exact .nil
  | d :: ds, h, i, fl, r, st, st' => by
    rw [trs, trs]
    exact (tr_most w d h.1 i fl _ st st').append (trs_most w ds h.2 i fl _ _ _)
end

/-- No width gives more line breaks than width 0. -/
theorem layout_most (w : Nat) {d : Doc} (h : d.GroupOnly) : (layout w d).count '\n' ≤ (layout 0 d).count '\n' := by
  have := run_le (tr_most w d h 0 false [] PSt.init PSt.init) (s := PSt.init) (t := PSt.init) ⟨Nat.le_refl _, Nat.le_refl _⟩
  rw [layout, layout, pr_tr, pr_tr]
  have h1 := breaks_flush (runOps (tr w d 0 false [] PSt.init) PSt.init)
  have h2 := breaks_flush (runOps (tr 0 d 0 false [] PSt.init) PSt.init)
  unfold breaks at h1 h2
  rw [h1, h2]
  exact this.2

end Width
end Afmt
