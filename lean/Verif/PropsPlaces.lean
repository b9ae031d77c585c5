import Verif.Gram.Places
import Verif.PropsTokens

/-!
# C56: comments keep their place among names and literals

`stream` (PlaceSpec.lean) lists the visible characters of the source and its comments.  The output consists of blanks,
pieces of code and comments; its code has the same visible characters in the same order (C43), so the number of visible
characters before a comment of the output says which characters of the source are before it.
-/

namespace Afmt.Gram

/-! ### Lemmas -/

theorem plainItems_split : ∀ {is : List SItem} {A : List Item} {x : Item} {B : List Item}, plainItems is = A ++ x :: B →
    ∃ is1 is2, is = is1 ++ .inl x :: is2 ∧ plainItems is1 = A := by
  intro is
  induction is with
  | nil => intro A x B h; simp [plainItems] at h
  | cons i is ih =>
    intro A x B h
    cases i with
    | inl y =>
      have e : plainItems (.inl y :: is) = y :: plainItems is := rfl
      rw [e] at h
      cases A with
      | nil =>
        rw [List.nil_append, List.cons.injEq] at h
        exact ⟨[], is, by rw [h.1]; rfl, rfl⟩
      | cons a A =>
        rw [List.cons_append, List.cons.injEq] at h
        obtain ⟨is1, is2, h1, h2⟩ := ih h.2
        refine ⟨.inl y :: is1, is2, by rw [h1]; rfl, ?_⟩
        have e : plainItems (.inl y :: is1) = y :: plainItems is1 := rfl
        rw [e, h2, h.1]
    | inr b =>
      have e : plainItems (.inr b :: is) = plainItems is := rfl
      rw [e] at h
      obtain ⟨is1, is2, h1, h2⟩ := ih h
      exact ⟨.inr b :: is1, is2, by rw [h1]; rfl, h2⟩

theorem SameX.split : ∀ {s : List (Sum Ch Comment)} {t : List (Sum Ch Comment)} {c : Comment} {k : Cont},
    SameX (s ++ .inr c :: t) k → ∃ k1 h k2, k = k1 ++ .inr (h, c) :: k2 ∧ SameX s k1
  | [], t, c, [], h => h.elim
  | [], t, c, .inl _ :: _, h => h.elim
  | [], t, c, .inr (hd, d) :: k, h => ⟨[], hd, k, by rw [h.1]; rfl, trivial⟩
  | .inl _ :: _, t, c, [], h => h.elim
  | .inr _ :: _, t, c, [], h => h.elim
  | .inl x :: s, t, c, .inl (b, d) :: k, h => by
    obtain ⟨k1, hd, k2, e, h'⟩ := SameX.split h.2
    exact ⟨.inl (b, d) :: k1, hd, k2, by rw [e]; rfl, h.1, h'⟩
  | .inl _ :: _, _, _, .inr _ :: _, h => h.elim
  | .inr _ :: _, _, _, .inl _ :: _, h => h.elim
  | .inr x :: s, t, c, .inr d :: k, h => by
    obtain ⟨k1, hd, k2, e, h'⟩ := SameX.split h.2
    exact ⟨.inr d :: k1, hd, k2, by rw [e]; rfl, h.1, h'⟩

theorem anchors_chars : ∀ k : List (Bool × Ch), anchors k = nameCount ((chars k).map (fun e => !e.1))
  | [] => rfl
  | (b, .c x) :: k => by
    have e : chars ((b, .c x) :: k) = (b, x.1) :: chars k := rfl
    rw [e, List.map_cons, nameCount, List.countP_cons, anchors, List.countP_cons]
    have := anchors_chars k
    rw [anchors, nameCount] at this
    rw [this]
    rfl
  | (b, .sep f) :: k => by
    have e : chars ((b, .sep f) :: k) = chars k := rfl
    rw [e, ← anchors_chars k, anchors, List.countP_cons]
    simp [isAnchor, anchors]

mutual
theorem code_flags : ∀ n : Node, (code n).map (fun e => !e.1) = flagsOf (stream n)
  | .mk id kind named extra err field sr er sb eb text children => by
    cases extra with
    | true => cases children <;> simp [code, stream, flagsOf]
    | false =>
      cases children with
      | nil =>
        simp only [code, stream, Bool.false_eq_true, if_false, List.map_map, Function.comp_def, flagsOf, List.filterMap_map,
          nameKind, Bool.not_or, Bool.not_not]
        induction ink text with
        | nil => rfl
        | cons c s ih => exact congrArg (_ :: ·) ih
      | cons c cs =>
        simp only [code, stream, Bool.false_eq_true, if_false, List.map_append, code_flags c, codes_flags cs, flagsOf_append]
theorem codes_flags : ∀ ns : List Node, (codes ns).map (fun e => !e.1) = flagsOf (kidsStream ns)
  | [] => rfl
  | c :: cs => by rw [codes, kidsStream, List.map_append, code_flags c, codes_flags cs, flagsOf_append]
end

theorem Same.length : ∀ {s : Str} {k : List (Bool × Char)}, Same s k → s.length = k.length
  | [], [], _ => rfl
  | _ :: _, (_, _) :: _, h => congrArg (· + 1) (Same.length h.2)
  | [], _ :: _, h => h.elim
  | _ :: _, [], h => h.elim

/-! ### C56

The full statement has no exception.  It is false: a comment after the field list of an object in the `RETURNING` clause
of a SOSL query is moved behind the `)` (`C56_comment_moved_behind_names`); therefore, and because some productions of the
grammar are left out (C43), the theorem is called `_partial`. -/

/-- **C56**: the output consists of blanks, pieces of code and comments such that the code has the visible characters of
the source (up to letter case), the comments are those of the source, and before every comment there are as many
characters of names and literals as there are before it in the source. -/
theorem C56_comments_keep_their_place_partial (checks : Bool) (fuel : Nat) (cfg : Config) (root : Node) (out : Str)
    (hp : Parsed root) (hc : conforms root = true) (h : formatTree checks fuel cfg root = .ok out) :
    ∃ ss, out = renderSegs ss ∧ (∀ b, Seg.blank b ∈ ss → ink b = []) ∧
      Same (((codeOf (itemsOf ss)).map ink).flatten) (code root) ∧
      (commentsOf (itemsOf ss)).Perm (root.extras.map Occ.comment) ∧
      ∀ o ∈ root.extras, afterFields o = false → ∀ a i b, ss = a ++ Seg.comment o.comment i :: b →
        ∀ x y, stream root = x ++ .inr o.node.id :: y →
          nameCount ((flagsOf (stream root)).take (((codeOf (itemsOf a)).map ink).flatten).length) = nameCount (flagsOf x) := by
  obtain ⟨cm, p, is, log, d, hcm, _, _, _, hd, ho, hperm, k, h1, h2, h3, _⟩ := run_places hp hc h
  obtain ⟨ss, e1, e2, e3⟩ := layout_segments cfg.maxWidth hd
  have g := good_of hp hc hcm
  have hsame := (h2 ▸ h1.parts.1 : SameC (inks is) (codeC (cont cm root))).chars
  rw [chars_cont, charsOf_inks] at hsame
  refine ⟨ss, by rw [ho, e1], e3.blank, by rw [e2]; exact hsame, by rw [e2]; exact hperm, ?_⟩
  intro o hom haf a i b hss x y hst
  have hit : plainItems is = itemsOf a ++ Item.comment o.comment :: itemsOf b := by
    rw [← e2, hss]
    simp [itemsOf, Seg.item]
  obtain ⟨is1, is2, his, hpl⟩ := plainItems_split hit
  have hfl : flatI is = flatI is1 ++ .inr o.comment :: flatI is2 := by
    rw [his, flatI_append]; rfl
  rw [hfl] at h1
  obtain ⟨k1, hd', k2, hk, hsx⟩ := h1.split
  have hspot : (hd'.spot (anchors (codeC k1)), o.comment) ∈ spots 0 (cont cm root) := by
    rw [← h3.mem_iff, hk, spots_append]
    simp [spots]
  obtain ⟨o', ho', hoc, hw⟩ := kept_place hp g hspot (x := x) (y := y) hst
  have hoo : o' = o := by
    refine inj_of_nodup (fun o => o.node.id) hp.commentIds ho' hom ?_
    have : o'.comment.id = o.comment.id := by rw [hoc]
    exact this
  rw [hoo] at hw
  have hn : anchors (codeC k1) = nameCount (flagsOf x) := by
    rcases hw with ⟨_, h⟩ | h
    · rw [haf] at h; cases h
    · simp only [Hold.spot] at h
      split at h
      · cases h
      · exact Option.some.inj h
  rw [← hn, anchors_chars]
  have hpre : chars (codeC k) = chars (codeC k1) ++ chars (codeC (.inr (hd', o.comment) :: k2)) := by
    rw [hk, codeC_append]; simp [chars, lets, bare]
  have hlen : (((codeOf (itemsOf a)).map ink).flatten).length = (chars (codeC k1)).length := by
    have := hsx.parts.1.chars.length
    rw [charsOf_inks, hpl] at this
    exact this
  rw [hlen, ← code_flags, ← chars_cont cm, ← h2, hpre, List.map_append, List.take_append_of_le_length (by simp), List.take_of_length_le (by simp)]

/-- **C56** (the names around a comment): no name, number or string of the source that is before a comment is after it in the
output, and the other way round: a character of the source that belongs to a name or literal is before the comment in
the source exactly if the same character is before it in the output. -/
theorem C56_no_name_crossed_partial (checks : Bool) (fuel : Nat) (cfg : Config) (root : Node) (out : Str)
    (hp : Parsed root) (hc : conforms root = true) (h : formatTree checks fuel cfg root = .ok out) :
    ∃ ss, out = renderSegs ss ∧ (∀ b, Seg.blank b ∈ ss → ink b = []) ∧
      Same (((codeOf (itemsOf ss)).map ink).flatten) (code root) ∧
      ∀ o ∈ root.extras, afterFields o = false → ∀ a i b, ss = a ++ Seg.comment o.comment i :: b →
        ∀ x y, stream root = x ++ .inr o.node.id :: y →
          ∀ j, (flagsOf (stream root))[j]? = some true →
            (j < (((codeOf (itemsOf a)).map ink).flatten).length ↔ j < (flagsOf x).length) := by
  obtain ⟨ss, h1, h2, h3, _, h4⟩ := C56_comments_keep_their_place_partial checks fuel cfg root out hp hc h
  refine ⟨ss, h1, h2, h3, ?_⟩
  intro o ho haf a i b hss x y hst j hj
  have hc := h4 o ho haf a i b hss x y hst
  have hx : (flagsOf (stream root)).take (flagsOf x).length = flagsOf x := by
    rw [hst, flagsOf_append, List.take_append_of_le_length (Nat.le_refl _), List.take_of_length_le (Nat.le_refl _)]
  rw [← hx] at hc
  have key : ∀ (l : List Bool) (m n j : Nat), nameCount (l.take m) = nameCount (l.take n) → l[j]? = some true → j < m → j < n := by
    intro l m n j hc hj hm
    refine Nat.lt_of_not_le (fun hn => ?_)
    have hl : j < l.length := (List.getElem?_eq_some_iff.1 hj).1
    have e : l.take m = l.take n ++ (l.drop n).take (m - n) := by
      rw [← List.take_append_drop n (l.take m), List.take_take, List.drop_take]
      congr 2
      omega
    rw [e, nameCount_append] at hc
    have hz : nameCount ((l.drop n).take (m - n)) = 0 := by omega
    rw [nameCount, List.countP_eq_zero] at hz
    have hmem : true ∈ (l.drop n).take (m - n) := by
      refine List.mem_of_getElem? (i := j - n) ?_
      rw [List.getElem?_take_of_lt (by omega), List.getElem?_drop]
      rw [show n + (j - n) = j by omega]
      exact hj
    exact hz true hmem rfl
  exact ⟨key _ _ _ j hc hj, key _ _ _ j hc.symm hj⟩

example : exBigC.extras.map afterFields = [false, false, false] := by decide +kernel
/-- The comments of the example are after `class A` and after `{`. -/
example : stream exBigC = (List.replicate 11 (.inl false) ++ [.inl true, .inr 8, .inl false, .inr 11, .inr 12]) ++
    (stream exBigC).drop 16 := by decide +kernel
example : (formatTree true 60 ⟨80, 2⟩ exBigC).isOk = true := by decide +kernel
example (out : Str) (h : formatTree true 60 ⟨80, 2⟩ exBigC = .ok out) :=
  C56_no_name_crossed_partial _ _ _ _ _ exBigC_parsed exBigC_conforms h

/-! ### C57 -/

theorem codeC_firmly : ∀ k : Cont, codeC (firmly k) = codeC k
  | [] => rfl
  | .inl x :: k => by
    have e : firmly (.inl x :: k) = .inl x :: firmly k := rfl
    have e1 : ∀ k, codeC (.inl x :: k) = x :: codeC k := fun _ => rfl
    rw [e, e1, e1, codeC_firmly k]
  | .inr c :: k => by
    have e1 : codeC (.inr c :: k) = codeC k := rfl
    rw [e1, ← codeC_firmly k]
    unfold firmly
    rw [List.filter_cons]
    by_cases h : (c.1 == Hold.firm) = true
    · simp only [h, if_true]; rfl
    · simp only [h]; rfl

theorem first_unique {α : Type} {f : α → Bool} : ∀ {m m' : List α} {s s' : α} {r r' : List α}, m ++ s :: r = m' ++ s' :: r' →
    (∀ x ∈ m, f x = false) → f s = true → (∀ x ∈ m', f x = false) → f s' = true → m = m' ∧ s = s'
  | [], [], _, _, _, _, h, _, _, _, _ => ⟨rfl, (List.cons.inj h).1⟩
  | [], x :: m', s, _, _, _, h, _, hs, hm', _ => by
    have := hm' x (by simp)
    rw [← (List.cons.inj h).1, hs] at this
    cases this
  | x :: m, [], _, s', _, _, h, hm, _, _, hs' => by
    have := hm x (by simp)
    rw [(List.cons.inj h).1, hs'] at this
    cases this
  | x :: m, x' :: m', _, _, _, _, h, hm, hs, hm', hs' => by
    obtain ⟨e1, e2⟩ := List.cons.inj h
    obtain ⟨e3, e4⟩ := first_unique e2 (fun y hy => hm y (by simp [hy])) hs (fun y hy => hm' y (by simp [hy])) hs'
    exact ⟨by rw [e1, e3], e4⟩

theorem firmly_split {k : Cont} {A B : Cont} {c : Comment} (h : firmly k = A ++ .inr (.firm, c) :: B) :
    ∃ k1 k2, k = k1 ++ .inr (.firm, c) :: k2 ∧ codeC k1 = codeC A := by
  unfold firmly at h
  rw [List.filter_eq_append_iff] at h
  obtain ⟨l1, l2, e, h1, h2⟩ := h
  rw [List.filter_eq_cons_iff] at h2
  obtain ⟨l3, l4, e', h3, _, _⟩ := h2
  refine ⟨l1 ++ l3, l4, by rw [e, e']; simp, ?_⟩
  have hz : codeC l3 = [] := by
    rw [← codeC_firmly]
    have : firmly l3 = [] := by
      unfold firmly
      rw [List.filter_eq_nil_iff]
      exact h3
    rw [this]; rfl
  have h1 : firmly l1 = A := h1
  rw [codeC_append, hz, List.append_nil, ← h1, codeC_firmly]

theorem anc_chars : ∀ k : List (Bool × Ch), anc (fun _ => true) k = (chars k).length
  | [] => rfl
  | (b, .c x) :: k => by
    have e : chars ((b, .c x) :: k) = (b, x.1) :: chars k := rfl
    have e1 : (b, Ch.c x) :: k = [(b, .c x)] ++ k := rfl
    rw [e, List.length_cons, e1, anc_append, anc_chars k]
    simp [anc]
    omega
  | (b, .sep f) :: k => by
    have e : chars ((b, .sep f) :: k) = chars k := rfl
    have e1 : (b, Ch.sep f) :: k = [(b, .sep f)] ++ k := rfl
    rw [e, e1, anc_append, anc_chars k]
    simp [anc]

theorem preHold_firm {k : String} : preHold k = .firm ↔ keepsBefore k = true := by
  unfold preHold keepsBefore; split <;> simp_all
theorem postHold_firm {k : String} : postHold k = .firm ↔ keepsAfter k = true := by
  unfold postHold keepsAfter
  by_cases h1 : k = "selected_fields"
  · simp [h1]
  · by_cases h2 : k = "accessor_declaration"
    · simp [h2]
    · simp [h1, h2]

/-- The places of comments that keep their exact place. -/
theorem exact_places (checks : Bool) (fuel : Nat) (cfg : Config) (root : Node) (out : Str)
    (hp : Parsed root) (hc : conforms root = true) (h : formatTree checks fuel cfg root = .ok out) :
    ∃ ss, out = renderSegs ss ∧ (∀ b, Seg.blank b ∈ ss → ink b = []) ∧
      Same (((codeOf (itemsOf ss)).map ink).flatten) (code root) ∧
      (commentsOf (itemsOf ss)).Perm (root.extras.map Occ.comment) ∧
      ∀ o ∈ root.extras, ∀ a i b, ss = a ++ Seg.comment o.comment i :: b →
        ∃ x y, stream root = x ++ .inr o.node.id :: y ∧
          ((o.owner = .dangling o.parent) ∨
          (∃ mid s rest p q, o.rights = mid ++ s :: rest ∧ (∀ m ∈ mid, m.associable = false) ∧ s.associable = true ∧
            o.owner = .pre s.id ∧ (s, p, q) ∈ spans 0 root ∧
            (keepsBefore s.kind = true → (((codeOf (itemsOf a)).map ink).flatten).length = p ∧
              p = (flagsOf x).length + namesL (fun _ => true) mid)) ∨
          (∃ mid s rest p q, o.lefts = mid ++ s :: rest ∧ (∀ m ∈ mid, m.associable = false) ∧ s.associable = true ∧
            o.owner = .post s.id ∧ (s, p, q) ∈ spans 0 root ∧
            (keepsAfter s.kind = true → (((codeOf (itemsOf a)).map ink).flatten).length = q ∧
              (flagsOf x).length = q + namesL (fun _ => true) mid))) := by
  obtain ⟨cm, p, is, log, d, hcm, _, _, _, hd, ho, hperm, k, h1, h2, h3, hfirm⟩ := run_places hp hc h
  obtain ⟨ss, e1, e2, e3⟩ := layout_segments cfg.maxWidth hd
  have g := good_of hp hc hcm
  have hsame := (h2 ▸ h1.parts.1 : SameC (inks is) (codeC (cont cm root))).chars
  rw [chars_cont, charsOf_inks] at hsame
  refine ⟨ss, by rw [ho, e1], e3.blank, by rw [e2]; exact hsame, by rw [e2]; exact hperm, ?_⟩
  intro o hom a i b hss
  obtain ⟨x, y, hst⟩ := List.append_of_mem (stream_extras root g.closed g.noExtra o hom)
  refine ⟨x, y, hst, ?_⟩
  have hit : plainItems is = itemsOf a ++ Item.comment o.comment :: itemsOf b := by
    rw [← e2, hss]
    simp [itemsOf, Seg.item]
  obtain ⟨is1, is2, his, hpl⟩ := plainItems_split hit
  have hfl : flatI is = flatI is1 ++ .inr o.comment :: flatI is2 := by
    rw [his, flatI_append]; rfl
  rw [hfl] at h1
  obtain ⟨k1, hd', k2, hk, hsx⟩ := h1.split
  have hlen : (((codeOf (itemsOf a)).map ink).flatten).length = (chars (codeC k1)).length := by
    have := hsx.parts.1.chars.length
    rw [charsOf_inks, hpl] at this
    exact this
  have hspot : (hd'.spot (anchors (codeC k1)), o.comment) ∈ spots 0 (cont cm root) := by
    rw [← h3.mem_iff, hk, spots_append]
    simp [spots]
  rw [← spotsW_id] at hspot
  -- the place if the comment is firm
  have hexact : hd' = .firm → ((Hold.firm, some (((codeOf (itemsOf a)).map ink).flatten).length), o.comment) ∈
      spotsW (fun _ => true) 0 (cont cm root) := by
    rintro rfl
    have hf : firmly (cont cm root) = firmly k1 ++ .inr (.firm, o.comment) :: firmly k2 := by
      rw [← hfirm, hk]
      unfold firmly
      rw [List.filter_append, List.filter_cons]
      rfl
    obtain ⟨c1, c2, hcc, hcode⟩ := firmly_split hf
    rw [codeC_firmly] at hcode
    rw [hcc, spotsW_append, hcode, hlen, anc_chars]
    simp [spotsW, Hold.spot]
  obtain ⟨P, p1, q1, lefts, c, rights, _, _, _, hex, hom', hoc, _, hcase⟩ := kept_at hp g hspot (x := x) (y := y) hst
  have hoo : o = ⟨P.id, c, lefts, rights⟩ := by
    refine inj_of_nodup (fun o => o.node.id) hp.commentIds hom hom' ?_
    have : o.comment.id = (Occ.comment ⟨P.id, c, lefts, rights⟩).id := by rw [hoc]
    exact this
  rcases hcase with ⟨h1, _, _⟩ | ⟨mid, s, rest, g1, g2, g3, g4, g5, g6⟩ | ⟨mid, s, rest, g1, g2, g3, g4, g5, g6⟩
  · left; rw [hoo]; exact h1
  · right; left
    have hcode : s ∈ root.codeNodes := by
      rw [← places_code (w := id) root 0]
      exact List.mem_map.2 ⟨_, g5, rfl⟩
    have hpl : ∃ p q, (s, p, q) ∈ spans 0 root := by
      rw [← places_code (w := fun _ => true) root 0] at hcode
      obtain ⟨⟨s', p, q⟩, hm, rfl⟩ := List.mem_map.1 hcode
      exact ⟨p, q, by rw [← places_spans]; exact hm⟩
    obtain ⟨p, q, hpq⟩ := hpl
    refine ⟨mid, s, rest, p, q, by rw [hoo]; exact g1, g2, g3, by rw [hoo]; exact g4, hpq, ?_⟩
    intro hkeep
    have hdf : hd' = .firm := by
      rw [← preHold_firm.2 hkeep]
      exact congrArg Prod.fst g6
    obtain ⟨o', ho', hoc', hx⟩ := kept_exact hp g (hexact hdf) (x := x) (y := y) hst
    have hoo' : o' = ⟨P.id, c, lefts, rights⟩ := by
      refine inj_of_nodup (fun o => o.node.id) hp.commentIds ho' hom' ?_
      have : o'.comment.id = (Occ.comment ⟨P.id, c, lefts, rights⟩).id := by rw [hoc', hoc]
      exact this
    subst hoo'
    rcases hx with ⟨mid', s', rest', k1, k2, k0, k3, ⟨q', k4⟩, k5⟩ | ⟨_, _, _, _, _, _, k3, _⟩
    · obtain ⟨rfl, rfl⟩ := first_unique (g1.symm.trans k1) g2 g3 k2 k0
      have := places_inj g.nodup (a := (s, p, q)) (by rw [places_spans]; exact hpq) k4 rfl
      have : p = _ := congrArg (·.2.1) this
      exact ⟨this.symm, by rw [this]; exact k5⟩
    · rw [g4] at k3; cases k3
  · right; right
    have hcode : s ∈ root.codeNodes := by
      rw [← places_code (w := id) root 0]
      exact List.mem_map.2 ⟨_, g5, rfl⟩
    have hpl : ∃ p q, (s, p, q) ∈ spans 0 root := by
      rw [← places_code (w := fun _ => true) root 0] at hcode
      obtain ⟨⟨s', p, q⟩, hm, rfl⟩ := List.mem_map.1 hcode
      exact ⟨p, q, by rw [← places_spans]; exact hm⟩
    obtain ⟨p, q, hpq⟩ := hpl
    refine ⟨mid, s, rest, p, q, by rw [hoo]; exact g1, g2, g3, by rw [hoo]; exact g4, hpq, ?_⟩
    intro hkeep
    have hdf : hd' = .firm := by
      rw [← postHold_firm.2 hkeep]
      exact congrArg Prod.fst g6
    obtain ⟨o', ho', hoc', hx⟩ := kept_exact hp g (hexact hdf) (x := x) (y := y) hst
    have hoo' : o' = ⟨P.id, c, lefts, rights⟩ := by
      refine inj_of_nodup (fun o => o.node.id) hp.commentIds ho' hom' ?_
      have : o'.comment.id = (Occ.comment ⟨P.id, c, lefts, rights⟩).id := by rw [hoc', hoc]
      exact this
    subst hoo'
    rcases hx with ⟨_, _, _, _, _, _, k3, _⟩ | ⟨mid', s', rest', k1, k2, k0, k3, ⟨q', k4⟩, k5⟩
    · rw [g4] at k3; cases k3
    · obtain ⟨rfl, rfl⟩ := first_unique (g1.symm.trans k1) g2 g3 k2 k0
      have := places_inj g.nodup (a := (s, p, q)) (by rw [places_spans]; exact hpq) k4 rfl
      have : q = _ := congrArg (·.2.2) this
      exact ⟨this.symm, by rw [this]; exact k5⟩

theorem spans_inj {root : Node} (hp : Parsed root) {a b : Node × Nat × Nat} (ha : a ∈ spans 0 root) (hb : b ∈ spans 0 root)
    (h : a.1.id = b.1.id) : a = b := by
  rw [← places_spans] at ha hb
  exact places_inj hp.codeIds ha hb h

/-- **C57**: comments are printed next to the code they belong to.  The output consists of blanks, pieces of code and comments
such that the code has the visible characters of the source (up to letter case), the comments are those of the source, a
comment that belongs before a node (C14) is directly before the first visible character of the node, and a comment
that belongs after a node is directly after the last one.  Excepted are the nodes excluded by `keepsBefore` and `keepsAfter`. -/
theorem C57_comments_at_owner_partial (checks : Bool) (fuel : Nat) (cfg : Config) (root : Node) (out : Str)
    (hp : Parsed root) (hc : conforms root = true) (h : formatTree checks fuel cfg root = .ok out) :
    ∃ ss, out = renderSegs ss ∧ (∀ b, Seg.blank b ∈ ss → ink b = []) ∧
      Same (((codeOf (itemsOf ss)).map ink).flatten) (code root) ∧
      (commentsOf (itemsOf ss)).Perm (root.extras.map Occ.comment) ∧
      ∀ o ∈ root.extras, ∀ a i b, ss = a ++ Seg.comment o.comment i :: b → ∀ s p q, (s, p, q) ∈ spans 0 root →
        (o.owner = .pre s.id → keepsBefore s.kind = true → (((codeOf (itemsOf a)).map ink).flatten).length = p) ∧
        (o.owner = .post s.id → keepsAfter s.kind = true → (((codeOf (itemsOf a)).map ink).flatten).length = q) := by
  obtain ⟨ss, h1, h2, h3, h4, h5⟩ := exact_places checks fuel cfg root out hp hc h
  refine ⟨ss, h1, h2, h3, h4, ?_⟩
  intro o ho a i b hss s p q hsp
  obtain ⟨x, y, _, hx⟩ := h5 o ho a i b hss
  constructor
  · intro hown hk
    rcases hx with e | ⟨mid, s', rest, p', q', _, _, _, e, hsp', hl⟩ | ⟨mid, s', rest, p', q', _, _, _, e, _⟩
    · rw [hown] at e; cases e
    · have := spans_inj hp hsp hsp' (by rw [hown] at e; exact Slot.pre.inj e)
      cases this
      exact (hl hk).1
    · rw [hown] at e; cases e
  · intro hown hk
    rcases hx with e | ⟨mid, s', rest, p', q', _, _, _, e, _⟩ | ⟨mid, s', rest, p', q', _, _, _, e, hsp', hl⟩
    · rw [hown] at e; cases e
    · rw [hown] at e; cases e
    · have := spans_inj hp hsp hsp' (by rw [hown] at e; exact Slot.post.inj e)
      cases this
      exact (hl hk).1

/-- **C57** (comments beside their code do not move): if nothing but comments is between a comment and the node it belongs to,
then exactly the visible characters before the comment in the source are before it in the output. -/
theorem C57_comments_beside_code_stay_partial (checks : Bool) (fuel : Nat) (cfg : Config) (root : Node) (out : Str)
    (hp : Parsed root) (hc : conforms root = true) (h : formatTree checks fuel cfg root = .ok out) :
    ∃ ss, out = renderSegs ss ∧ (∀ b, Seg.blank b ∈ ss → ink b = []) ∧
      Same (((codeOf (itemsOf ss)).map ink).flatten) (code root) ∧
      (commentsOf (itemsOf ss)).Perm (root.extras.map Occ.comment) ∧
      ∀ o ∈ root.extras, besideOwner o = true → ∀ a i b, ss = a ++ Seg.comment o.comment i :: b →
        ∃ x y, stream root = x ++ .inr o.node.id :: y ∧
          (((codeOf (itemsOf a)).map ink).flatten).length = (flagsOf x).length := by
  obtain ⟨ss, h1, h2, h3, h4, h5⟩ := exact_places checks fuel cfg root out hp hc h
  refine ⟨ss, h1, h2, h3, h4, ?_⟩
  intro o ho hbes a i b hss
  obtain ⟨x, y, hst, hx⟩ := h5 o ho a i b hss
  refine ⟨x, y, hst, ?_⟩
  -- the nearest code is the owner
  have near : ∀ {l mid rest : List Node} {s s' : Node}, l.find? (fun s => !s.extra) = some s → s.associable = true →
      l = mid ++ s' :: rest → (∀ m ∈ mid, m.associable = false) → s'.associable = true →
      s = s' ∧ namesL (fun _ => true) mid = 0 := by
    intro l mid rest s s' hf hs hl hm hs'
    rw [List.find?_eq_some_iff_append] at hf
    obtain ⟨_, m1, r1, e, hm1⟩ := hf
    have hm1' : ∀ m ∈ m1, m.extra = true := fun m hmm => by simpa using hm1 m hmm
    obtain ⟨e1, e2⟩ := first_unique (f := Node.associable) (e.symm.trans hl)
      (fun m hmm => by simp [Node.associable, hm1' m hmm]) hs hm hs'
    refine ⟨e2, namesL_zero (fun m hmm => names_extra (hm1' m (e1 ▸ hmm)))⟩
  unfold besideOwner at hbes
  rw [Bool.or_eq_true] at hbes
  rcases hbes with hb | hb
  · split at hb
    · rename_i s hf
      simp only [Bool.and_eq_true, beq_iff_eq] at hb
      obtain ⟨⟨hs, hown⟩, hk⟩ := hb
      rcases hx with e | ⟨mid, s', rest, p', q', hr, hm, hs', e, hsp', hl⟩ | ⟨mid, s', rest, p', q', _, _, _, e, _⟩
      · rw [hown] at e; cases e
      · obtain ⟨rfl, hz⟩ := near hf hs hr hm hs'
        obtain ⟨l1, l2⟩ := hl hk
        omega
      · rw [hown] at e; cases e
    · cases hb
  · split at hb
    · rename_i s hf
      simp only [Bool.and_eq_true, beq_iff_eq] at hb
      obtain ⟨⟨hs, hown⟩, hk⟩ := hb
      rcases hx with e | ⟨mid, s', rest, p', q', _, _, _, e, _⟩ | ⟨mid, s', rest, p', q', hr, hm, hs', e, hsp', hl⟩
      · rw [hown] at e; cases e
      · rw [hown] at e; cases e
      · obtain ⟨rfl, hz⟩ := near hf hs hr hm hs'
        obtain ⟨l1, l2⟩ := hl hk
        omega
    · cases hb

example : exBigC.extras.map besideOwner = [true, true, true] := by decide +kernel
example (out : Str) (h : formatTree true 60 ⟨80, 2⟩ exBigC = .ok out) :=
  C57_comments_beside_code_stay_partial _ _ _ _ _ exBigC_parsed exBigC_conforms h

/-- `class A { Object m() { return a + <c> b; } }` -/
def exPlus (c : List Node) : Node := (numbered 1 (exNode 0 "parser_output" 0 0 "" [
  exNode 0 "class_declaration" 0 0 "" [exTok 0 "class" 0, exField "name" (exLeaf "identifier" "A" 0),
    exField "body" (exNode 0 "class_body" 0 0 "" [exTok 0 "{" 0,
      exNode 0 "method_declaration" 0 0 "" [
        exField "type" (exLeaf "type_identifier" "Object" 0), exField "name" (exLeaf "identifier" "m" 0),
        exField "parameters" (exNode 0 "formal_parameters" 0 0 "" [exTok 0 "(" 0, exTok 0 ")" 0]),
        exField "body" (exNode 0 "block" 0 0 "" [exTok 0 "{" 0,
          exNode 0 "return_statement" 0 0 "" [exTok 0 "return" 0,
            exNode 0 "binary_expression" 0 0 "" ([exField "left" (exLeaf "identifier" "a" 0),
              exField "operator" (exTok 0 "+" 0)] ++ c ++ [exField "right" (exLeaf "identifier" "b" 0)]),
            exTok 0 ";" 0],
          exTok 0 "}" 0])],
      exTok 0 "}" 0])]])).1

/-- **C57** (negation without the hypothesis): a comment separated from the code it belongs to is moved over the token in
between: `a + /* c */ b` becomes `a /* c */  + b` (with two blanks). -/
theorem C57_comment_moved_before_operator : ∃ root out, Parsed root ∧ conforms root = true ∧
    formatTree true 60 ⟨80, 2⟩ root = .ok out ∧ (∃ o ∈ root.extras, o.node.text = "/* c */".toList ∧
      besideOwner o = false ∧ (o.lefts.head?.map Node.text = some "+".toList)) ∧
    out = "class A {\n  Object m() {\n    return a /* c */  + b;\n  }\n}\n".toList :=
  ⟨exPlus [exComment 0 false 0 "/* c */"], _, ⟨closedB_iff _ (by decide), by decide, by decide⟩, by decide +kernel, by decide +kernel,
    by decide +kernel, rfl⟩

/-! ### The exception of C56 -/

/-- ```
class A { Object m() { return [FIND 'x' RETURNING A(Id <c> WHERE B = 1)]; } }
``` -/
def exSosl (c : List Node) : Node := (numbered 1 (exNode 0 "parser_output" 0 0 "" [
  exNode 0 "class_declaration" 0 0 "" [exTok 0 "class" 0, exField "name" (exLeaf "identifier" "A" 0),
    exField "body" (exNode 0 "class_body" 0 0 "" [exTok 0 "{" 0,
      exNode 0 "method_declaration" 0 0 "" [
        exField "type" (exLeaf "type_identifier" "Object" 0), exField "name" (exLeaf "identifier" "m" 0),
        exField "parameters" (exNode 0 "formal_parameters" 0 0 "" [exTok 0 "(" 0, exTok 0 ")" 0]),
        exField "body" (exNode 0 "block" 0 0 "" [exTok 0 "{" 0,
          exNode 0 "return_statement" 0 0 "" [exTok 0 "return" 0,
            exNode 0 "query_expression" 0 0 "" [exTok 0 "[" 0,
              exNode 0 "sosl_query_body" 0 0 "" [
                exNode 0 "find_clause" 0 0 "" [exTok 0 "FIND" 0, exTok 0 "'" 0, exLeaf "term" "x" 0, exTok 0 "'" 0],
                exNode 0 "returning_clause" 0 0 "" [exTok 0 "RETURNING" 0,
                  exNode 0 "sobject_return" 0 0 "" ([exLeaf "identifier" "A" 0, exTok 0 "(" 0,
                    exNode 0 "selected_fields" 0 0 "" [exNode 0 "field_identifier" 0 0 "" [exLeaf "identifier" "Id" 0]]] ++ c ++ [
                    exNode 0 "where_clause" 0 0 "" [exTok 0 "WHERE" 0,
                      exNode 0 "comparison_expression" 0 0 "" [
                        exNode 0 "field_identifier" 0 0 "" [exLeaf "identifier" "B" 0],
                        exLeaf "value_comparison_operator" "=" 0,
                        exLeaf "int" "1" 0]],
                    exTok 0 ")" 0])]],
              exTok 0 "]" 0],
            exTok 0 ";" 0],
          exTok 0 "}" 0])],
      exTok 0 "}" 0])]])).1

/-- The exception with a comment. -/
def exSoslC : Node := exSosl [exComment 0 false 0 "/* c */"]

theorem exSoslC_parsed : Parsed exSoslC := ⟨closedB_iff _ (by decide), by decide, by decide⟩

/-- **C56** (negation of the full statement): a comment after the field list of an object in a `RETURNING` clause is printed
behind the closing parenthesis: `A(Id /* c */ WHERE B = 1)` becomes `A(Id WHERE B = 1) /* c */`, so that the name `B`, the
operator `=` and the literal `1`, which the source has after the comment, are before it in the output. -/
theorem C56_comment_moved_behind_names : ∃ root out x y, Parsed root ∧ conforms root = true ∧
    formatTree true 60 ⟨80, 2⟩ root = .ok out ∧ (∃ o ∈ root.extras, o.node.text = "/* c */".toList ∧ stream root = x ++ .inr o.node.id :: y) ∧
    nameCount (flagsOf y) = 3 ∧
    out = "class A {\n  Object m() {\n    return [FIND 'x' RETURNING A(Id WHERE B = 1) /* c */ ];\n  }\n}\n".toList :=
  ⟨exSoslC, _, (stream exSoslC).takeWhile (·.isLeft), ((stream exSoslC).dropWhile (·.isLeft)).drop 1, exSoslC_parsed,
    by decide +kernel, by decide +kernel, by decide +kernel, by decide +kernel, rfl⟩

end Afmt.Gram
