import Verif.Width.Text
import Verif.Ends.Done

/-!
# Formatting at two widths, with comments between members

The operations performed for a program with comments in places of their own, and the texts of its document.
-/

namespace Afmt
namespace Width

open Prog
open Afmt.Notes (Sym Br Res Ress Role Roles PreRoles PostRoles syms symss lineSyms textSyms comSyms bucketOf bucketOf_get)

/-- The trace of the documents consists of operations the symbols stand for. -/
def Tr (ds : List Doc) (xs : List Sym) : Prop :=
  ∀ (w i : Nat) (fl : Bool) (rest : List Chunk) (st : PSt), Ress xs (trs w ds i fl rest st)

theorem Tr.nil : Tr [] [] := fun _ _ _ _ _ => .nil

theorem Tr.cons {d : Doc} {ds : List Doc} {xs ys : List Sym} (h : ∀ (w i : Nat) (fl : Bool) (rest : List Chunk) (st : PSt),
    Ress xs (tr w d i fl rest st)) (h' : Tr ds ys) : Tr (d :: ds) (xs ++ ys) := by
  intro w i fl rest st
  rw [trs]
  exact (h w i fl _ st).append (h' w i fl rest _)

theorem trs_append (w : Nat) : ∀ (ds ds' : List Doc) (i : Nat) (fl : Bool) (rest : List Chunk) (st : PSt), trs w (ds ++ ds') i fl rest st =
    trs w ds i fl (ds'.map (fun d => { doc := d, indent := i, flat := fl }) ++ rest) st ++
      trs w ds' i fl rest (prs w ds i fl (ds'.map (fun d => { doc := d, indent := i, flat := fl }) ++ rest) st)
  | [], ds', i, fl, rest, st => by simp [trs, prs]
  | d :: ds, ds', i, fl, rest, st => by
    simp only [List.cons_append, trs, prs, List.map_append, List.append_assoc]
    rw [trs_append w ds ds' i fl rest]
theorem Tr.append {ds ds' : List Doc} {xs ys : List Sym} (h : Tr ds xs) (h' : Tr ds' ys) : Tr (ds ++ ds') (xs ++ ys) := by
  intro w i fl rest st
  rw [trs_append]
  exact (h w i fl _ st).append (h' w i fl rest _)

theorem Tr.concat {ds : List Doc} {xs : List Sym} (h : Tr ds xs) (w i : Nat) (fl : Bool) (rest : List Chunk) (st : PSt) :
    Ress xs (tr w (.concat ds) i fl rest st) := by
  rw [tr]; exact h w i fl rest st

theorem tr_txt (s : Str) (w i : Nat) (fl : Bool) (rest : List Chunk) (st : PSt) :
    Ress [.txt s] (tr w (Afmt.txt s) i fl rest st) := by
  rw [Afmt.txt, tr]; exact .one (.txt s _)
theorem tr_nl {k : Br} (w i : Nat) (fl : Bool) (rest : List Chunk) (st : PSt) :
    Ress [.br k] (tr w Afmt.nl i fl rest st) := by
  rw [Afmt.nl, tr]; exact .one (.pend _ i)
theorem tr_sep (b : Bool) (w i : Nat) (fl : Bool) (rest : List Chunk) (st : PSt) :
    Ress [.sep b] (tr w (if b then Afmt.emptyNewLine else Afmt.nl) i fl rest st) := by
  cases b
  · have : Ress [.sep false] [.pend i] := .one (.line i)
    simpa [Afmt.nl, tr] using this
  · have : Ress [.sep true] [.bare, .pend i] := .one (.blank i)
    simpa [emptyNewLine, tr, trs] using this
theorem tr_force (w i : Nat) (fl : Bool) (rest : List Chunk) (st : PSt) : Ress [] (tr w .forceBreak i fl rest st) := by
  rw [tr]; exact .nil

theorem Tr_lines : ∀ (ls : List Str), Tr (linesDoc ls) (lineSyms ls)
  | [] => .nil
  | [l] => .cons (tr_txt l) .nil
  | l :: l' :: ls => .cons (tr_txt l) (.cons tr_nl (Tr_lines (l' :: ls)))

theorem tr_comment (c : Comment) (w i : Nat) (fl : Bool) (rest : List Chunk) (st : PSt) :
    Ress (textSyms c) (tr w c.build i fl rest st) := by
  unfold Comment.build textSyms
  cases c.type with
  | line => exact Tr.concat (.cons (tr_txt _) (.cons tr_nl .nil)) w i fl rest st
  | block => exact Tr.concat (Tr_lines _) w i fl rest st

theorem Tr_post {ro : Comment → Role} : ∀ {cs : List Comment}, PostRoles ro cs →
    Tr (postDocs cs) (cs.flatMap (fun c => comSyms (ro c) c))
  | [], _ => .nil
  | c :: cs, h => by
    obtain ⟨h1, h2, h3, h4, h5⟩ := h
    have ih := Tr_post h5
    rw [postDocs, List.flatMap_cons]
    have ht : postTrail c = [] := by simp [postTrail, h1]
    rw [ht, List.nil_append, comSyms, h2, h3]
    unfold postLead
    cases hl : c.meta'.hasLeadingContent with
    | false =>
      rw [List.append_nil]
      have := Tr.cons (ds := c.build :: postDocs cs) (tr_sep c.meta'.hasEmptyLineAbove) (.cons (tr_comment c) ih)
      simpa using this
    | true =>
      rw [List.append_nil]
      have hc := h4 hl
      refine Tr.append (ds := [txt [' '], c.build]) ?_ ih
      have hb : c.build = .concat [txt c.value, nl] := by simp [Comment.build, hc]
      rw [hb]
      intro w i fl rest st
      have : Ress [.eol c.value, .br .cut] ([.text [' '] (byteLen [' ']), .text c.value (byteLen c.value)] ++ ([.pend i] ++ [])) :=
        .cons (.eol _ _ _) (.cons (.pend _ i) .nil)
      simpa [trs, tr, Afmt.txt, Afmt.nl, byteLen] using this

theorem Tr_pre {ro : Comment → Role} : ∀ {cs : List Comment} {first : Bool}, PreRoles ro first cs →
    Tr (preDocs first cs) (cs.flatMap (fun c => comSyms (ro c) c))
  | [], _, _ => .nil
  | c :: cs, first, h => by
    obtain ⟨h1, h2, h3, h4, h5⟩ := h
    have ih := Tr_pre h5
    rw [preDocs, List.flatMap_cons]
    refine Tr.append ?_ ih
    rw [h1, h2, comSyms, h3, h4]
    simp only [Bool.false_eq_true, if_false]
    have t : Tr (if cs = [] then (if c.meta'.hasEmptyLineBelow = true then [emptyNewLine] else [nl]) else [])
        (match (if cs = [] then some c.meta'.hasEmptyLineBelow else none) with
          | none => []
          | some b => [.sep b]) := by
      by_cases hc : cs = []
      · simp only [hc, if_true]
        have := Tr.cons (tr_sep c.meta'.hasEmptyLineBelow) .nil
        cases hb : c.meta'.hasEmptyLineBelow <;> simpa [hb] using this
      · simp only [hc, if_false]; exact .nil
    refine Tr.append ?_ t
    cases first with
    | true =>
      have := Tr.cons tr_force (.cons (tr_comment c) .nil)
      simpa using this
    | false =>
      have := Tr.cons tr_force (.cons (tr_sep c.meta'.hasEmptyLineAbove) (.cons (tr_comment c) .nil))
      cases hb : c.meta'.hasEmptyLineAbove <;> simpa [hb] using this

mutual
/-- The trace of a program consists of operations its symbols stand for, unless the comments of a punctuation are in the way. -/
theorem ntr_ress {ro : Comment → Role} {cm : CMap} (hs : Roles ro cm) (k w : Nat) : ∀ (p : Prog) (d : Doc) (l : List Comment),
    p.build k cm = .ok (d, l) → Sym.txt ['\n'] ∉ syms ro cm p → ∀ (i : Nat) (fl : Bool) (rest : List Chunk) (st : PSt),
    Ress (syms ro cm p) (tr w d i fl rest st)
  | .txt s, d, l, h, _, i, fl, rest, st => by
    rw [Prog.build] at h; cases h
    exact tr_txt s w i fl rest st
  | .nl, d, l, h, _, i, fl, rest, st => by
    rw [Prog.build] at h; cases h
    exact tr_nl w i fl rest st
  | .softline, d, l, h, _, i, fl, rest, st => by
    rw [Prog.build] at h; cases h
    cases fl
    · exact .one (.pend _ i)
    · exact .one .space
  | .maybeline, d, l, h, _, i, fl, rest, st => by
    rw [Prog.build] at h; cases h
    cases fl
    · exact .one (.pend _ i)
    · exact .one .none
  | .forceBreak, d, l, h, _, i, fl, rest, st => by
    rw [Prog.build] at h; cases h
    exact .nil
  | .sep b, d, l, h, _, i, fl, rest, st => by
    rw [Prog.build] at h; cases h
    exact tr_sep b w i fl rest st
  | .concat ps, d, l, h, hn, i, fl, rest, st => by
    rw [Prog.build] at h
    cases hb : Prog.builds k cm ps with
    | error e => rw [hb] at h; cases h
    | ok a =>
      rw [hb] at h; cases h
      rw [tr, syms]
      exact ntrs_ress hs k w ps a.1 a.2 hb (by rwa [syms] at hn) i fl rest st
  | .group p, d, l, h, hn, i, fl, rest, st => by
    rw [Prog.build] at h
    cases hb : Prog.build k cm p with
    | error e => rw [hb] at h; cases h
    | ok a =>
      rw [hb] at h; cases h
      have key : ∀ fl', Ress (syms ro cm (.group p)) (.flush :: tr w a.1 i fl' rest st.flush) := by
        intro fl'
        rw [syms]
        exact .cons .flush (ntr_ress hs k w p a.1 a.2 hb (fun h => hn (by rw [syms]; exact .tail _ h)) i fl' rest st.flush)
      simp only [Afmt.group, tr]
      split
      · exact key true
      · split
        · exact key true
        · exact key fl
  | .indent p, d, l, h, hn, i, fl, rest, st => by
    rw [Prog.build] at h
    cases hb : Prog.build k cm p with
    | error e => rw [hb] at h; cases h
    | ok a =>
      rw [hb] at h; cases h
      rw [syms, indentDoc, tr]
      exact ntr_ress hs k w p a.1 a.2 hb (by rwa [syms] at hn) _ fl rest st
  | .dedent p, d, l, h, hn, i, fl, rest, st => by
    rw [Prog.build] at h
    cases hb : Prog.build k cm p with
    | error e => rw [hb] at h; cases h
    | ok a =>
      rw [hb] at h; cases h
      rw [syms, dedentDoc, tr]
      exact ntr_ress hs k w p a.1 a.2 hb (by rwa [syms] at hn) _ fl rest st
  | .pre id, d, l, h, _, i, fl, rest, st => by
    rw [Prog.build] at h
    cases hb : getBucket cm id with
    | error e => rw [hb] at h; cases h
    | ok b =>
      rw [hb] at h; cases h
      have := hs.pre id
      rw [syms, bucketOf_get hb] at *
      exact Tr.concat (Tr_pre this) w i fl rest st
  | .post id, d, l, h, _, i, fl, rest, st => by
    rw [Prog.build] at h
    cases hb : getBucket cm id with
    | error e => rw [hb] at h; cases h
    | ok b =>
      rw [hb] at h; cases h
      have := hs.post id
      rw [syms, bucketOf_get hb] at *
      exact Tr.concat (Tr_post this) w i fl rest st
  | .rootDangling id, d, l, h, _, i, fl, rest, st => by
    rw [Prog.build] at h
    cases hb : getBucket cm id with
    | error e => rw [hb] at h; cases h
    | ok b =>
      rw [hb] at h; cases h
      have := hs.dangling id
      rw [bucketOf_get hb] at this
      rw [this]; exact .nil
  | .dangling id, d, l, h, _, i, fl, rest, st => by
    rw [Prog.build] at h
    cases hb : getBucket cm id with
    | error e => rw [hb] at h; cases h
    | ok b =>
      rw [hb] at h
      have := hs.dangling id
      rw [bucketOf_get hb] at this
      dsimp only at h
      rw [if_pos this] at h
      cases h
  | .punct p, d, l, h, hn, i, fl, rest, st => by
    rw [Prog.build] at h
    cases hb : getBucket cm p.id with
    | error e => rw [hb] at h; cases h
    | ok b =>
      rw [hb] at h; cases h
      rw [syms] at hn ⊢
      by_cases he : bucketOf cm p.id = Bucket.empty
      · rw [if_pos he]
        rw [bucketOf_get hb] at he
        subst he
        have : puncDocs Bucket.empty p = [Afmt.txt p.text] := by simp [puncDocs, Bucket.empty, postDocs]
        rw [this]
        exact Tr.concat (.cons (tr_txt _) .nil) w i fl rest st
      · rw [if_neg he] at hn
        exact absurd (.head _) hn
  | .ifDangling id p q, d, l, h, hn, i, fl, rest, st => by
    rw [Prog.build] at h
    cases hb : getBucket cm id with
    | error e => rw [hb] at h; cases h
    | ok b =>
      rw [hb] at h
      have := hs.dangling id
      rw [bucketOf_get hb] at this
      dsimp only at h
      rw [if_neg (by simp [this])] at h
      rw [syms]; exact ntr_ress hs k w q d l h (by rwa [syms] at hn) i fl rest st
  | .fail e, d, l, h, _, i, fl, rest, st => by rw [Prog.build] at h; cases h
theorem ntrs_ress {ro : Comment → Role} {cm : CMap} (hs : Roles ro cm) (k w : Nat) : ∀ (ps : List Prog) (ds : List Doc) (l : List Comment),
    Prog.builds k cm ps = .ok (ds, l) → Sym.txt ['\n'] ∉ symss ro cm ps → ∀ (i : Nat) (fl : Bool) (rest : List Chunk) (st : PSt),
    Ress (symss ro cm ps) (trs w ds i fl rest st)
  | [], ds, l, h, _, i, fl, rest, st => by
    rw [Prog.builds] at h; cases h
    exact .nil
  | p :: ps, ds, l, h, hn, i, fl, rest, st => by
    rw [Prog.builds] at h
    rw [symss, List.mem_append] at hn
    cases h1 : Prog.build k cm p with
    | error e => rw [h1] at h; cases h
    | ok a =>
      rw [h1] at h
      cases h2 : Prog.builds k cm ps with
      | error e => rw [h2] at h; cases h
      | ok b =>
        rw [h2] at h; cases h
        rw [symss, trs]
        exact (ntr_ress hs k w p a.1 a.2 h1 (fun h => hn (.inl h)) i fl _ st).append
          (ntrs_ress hs k w ps b.1 b.2 h2 (fun h => hn (.inr h)) i fl rest _)
end

/-! ### The texts of the document -/

mutual
/-- Every text of a document is printed. -/
theorem tr_texts {P : Str → Nat → Prop} (w : Nat) : ∀ (d : Doc), d.GroupOnly → ∀ (i : Nat) (fl : Bool) (rest : List Chunk) (st : PSt),
    (∀ s n, Op.text s n ∈ tr w d i fl rest st → P s n) → d.AllText P
  | .text s n, _, i, fl, rest, st, h => h s n (by rw [tr]; exact .head _)
  | .newline, _, _, _, _, _, _ | .newlineWithNoIndent, _, _, _, _, _, _ | .softline, _, _, _, _, _, _
  | .maybeline, _, _, _, _, _, _ | .forceBreak, _, _, _, _, _, _ => trivial
  | .flat d, g, i, fl, rest, st, h => tr_texts w d g i true rest st (by rwa [tr] at h)
  | .indent m d, g, i, fl, rest, st, h => tr_texts w d g (i + m) fl rest st (by rwa [tr] at h)
  | .dedent m d, g, i, fl, rest, st, h => tr_texts w d g (i - m) fl rest st (by rwa [tr] at h)
  | .concat ds, g, i, fl, rest, st, h => trs_texts w ds g i fl rest st (by rwa [tr] at h)
  | .choice x y, g, i, fl, rest, st, h => by
    obtain ⟨rfl, g2⟩ := g
    have key : y.AllText P := by
      rw [tr] at h
      split at h
      · rw [tr] at h
        exact tr_texts w y g2 i true rest st.flush (fun s n hm => h s n (.tail _ hm))
      · split at h
        · rw [tr] at h
          exact tr_texts w y g2 i true rest st.flush (fun s n hm => h s n (.tail _ hm))
        · exact tr_texts w y g2 i fl rest st.flush (fun s n hm => h s n (.tail _ hm))
    exact ⟨key, key⟩
theorem trs_texts {P : Str → Nat → Prop} (w : Nat) : ∀ (ds : List Doc), Doc.GroupOnlys ds → ∀ (i : Nat) (fl : Bool) (rest : List Chunk) (st : PSt),
    (∀ s n, Op.text s n ∈ trs w ds i fl rest st → P s n) → Doc.AllTexts P ds
  | [], _, _, _, _, _, _ => trivial
  | d :: ds, g, i, fl, rest, st, h => by
    rw [trs] at h
    exact ⟨tr_texts w d g.1 i fl _ st (fun s n hm => h s n (List.mem_append_left _ hm)),
      trs_texts w ds g.2 i fl rest _ (fun s n hm => h s n (List.mem_append_right _ hm))⟩
end

/-! ### What the machine says -/

open Afmt.Trail (Gate inner ends front lead pair tx_of)
open Afmt.Ends (St)
open Afmt.Gram hiding inner full

/-- As long as the machine does not go bad, no text has a line break. -/
theorem ends_text {xs : List Sym} {ops : List Op} (h : Ress xs ops) : ∀ {a : St}, @Ends.run Gate.whole a xs ≠ .bad →
    ∀ s n, Op.text s n ∈ ops → '\n' ∉ s := by
  have key : ∀ {a : St} {s : Str}, @Ends.tx Gate.whole a s ≠ .bad → '\n' ∉ s := by
    intro a s hb
    have ha : a ≠ .bad := by rintro rfl; exact hb rfl
    rw [@Ends.tx_of Gate.whole a ha] at hb
    cases s with
    | nil => simp
    | cons c t =>
      rw [if_neg (by simp)] at hb
      split at hb
      · rename_i hc
        rw [Bool.and_eq_true, Bool.and_eq_true, Bool.and_eq_true] at hc
        have : (!List.contains (c :: t) '\n') = true := hc.2.1
        simpa using this
      · exact absurd rfl hb
  induction h with
  | nil => intro a _ s n hm; cases hm
  | @cons x xs o os hx hr ih =>
    intro a h s n hm
    have h : @Ends.run Gate.whole (@Ends.step Gate.whole a x) xs ≠ .bad := h
    have hb : @Ends.step Gate.whole a x ≠ .bad := by
      intro e'; rw [e', @Ends.run_bad Gate.whole] at h; exact h rfl
    rcases List.mem_append.1 hm with hm | hm
    · cases hx with
      | txt s' n' =>
        rcases List.mem_singleton.1 hm with e
        cases e
        exact key hb
      | eol s' n1 n2 =>
        have : a = .N := by cases a <;> first | rfl | exact absurd rfl hb
        subst this
        rcases List.mem_cons.1 hm with e | e
        · cases e; decide
        · rcases List.mem_singleton.1 e with e
          cases e
          exact key (a := .B) hb
      | flush => rcases List.mem_singleton.1 hm with e; cases e
      | pend b i => rcases List.mem_singleton.1 hm with e; cases e
      | space => rcases List.mem_singleton.1 hm with e; cases e
      | line i => rcases List.mem_singleton.1 hm with e; cases e
      | none => cases hm
      | blank i =>
        rcases List.mem_cons.1 hm with e | e
        · cases e
        · rcases List.mem_singleton.1 e with e; cases e
    · exact ih h s n hm

/-- As long as the machine does not go bad, no blank is left out except at the start of a line. -/
theorem ends_steady {xs : List Sym} {ops : List Op} (h : Ress xs ops) : ∀ {a : St} {st : PSt}, Ends.Rel a st →
    @Ends.run Gate.whole a xs ≠ .bad → steady ops st = true := by
  induction h with
  | nil => intro a st h _; rfl
  | @cons x xs o os hx hr ih =>
    intro a st h1 h3
    rw [steady_append, Bool.and_eq_true]
    have hb : @Ends.step Gate.whole a x ≠ .bad := by
      intro e; apply h3
      show @Ends.run Gate.whole (@Ends.step Gate.whole a x) xs = _
      rw [e, @Ends.run_bad Gate.whole]
    have hone : @Ends.run Gate.whole a [x] ≠ .bad := hb
    have hrel := @Ends.run_rel Gate.whole _ _ (Ress.one hx) a st h1 hone
    refine ⟨?_, ih hrel h3⟩
    cases hx with
    | txt s n =>
      rw [steady, steady, Bool.and_true, keeps, Bool.not_eq_true']
      cases hs : s == [' '] with
      | false => rfl
      | true =>
        have hs' : s = [' '] := by simpa using hs
        subst hs'
        rw [Bool.true_and]
        cases hp : st.pend with
        | some i => rfl
        | none =>
          show endsWithSpace st.out = false
          apply Trail.ends_blank
          cases a with
          | N => exact h1.2.1
          | Q => exact h1.2
          | M => exact h1.2
          | bad => exact h1.elim
          | B => exact absurd (by decide) hb
          | L => exact absurd (by decide) hb
    | eol s n n' =>
      have : a = .N := by cases a <;> first | rfl | exact absurd rfl hb
      subst this
      have hns : (s == [' ']) = false := by
        cases hs : s == [' '] with
        | false => rfl
        | true =>
          have hs' : s = [' '] := by simpa using hs
          subst hs'
          exact absurd (by decide) hb
      have hlast : endsWithSpace st.out = false := Trail.ends_blank h1.2.1
      rw [steady, steady, steady, Bool.and_true, keeps, keeps, hns, hlast]
      simp
    | _ => rfl

/-- The document of a tree with comments between members: at every width the tree is formatted as its layout, and the
printer's machine accepts its program. -/
theorem ends_whole {checks : Bool} {depth k w : Nat} {root : Node} {out : Str} (hcl : root.Closed)
    (hi : root.ids.Nodup) (hf : root.field = none) (hc : conforms root = true) (hs : settled root = true) (hne : root.children ≠ [])
    (ht : @Ends.prims Gate.whole "parser_output" none root.children = true) (hu : updates root = true) (hca : calls root = true)
    (h : formatTree checks depth ⟨w, k⟩ root = .ok out) :
    ∃ d, Good d ∧ (∀ w, Steady w d) ∧ ∀ w, formatTree checks depth ⟨w, k⟩ root = .ok (layout w d) := by
  obtain ⟨root2, hcl2, hi2, hc2, hall, hcal, key⟩ := @Ends.mend_tree Gate.whole root checks hcl hi hf hc hs hne ht hu hca
  have h2 := (key depth ⟨w, k⟩ out).1 h
  obtain ⟨ro, cm, p, d, l, hcm, hn, hro, hb, hrun, -⟩ := @Ends.mend_run Gate.whole _ _ _ _ _ hcl2 hi2 hc2 hall hcal h2
  have hnl := @Ends.run_feed Gate.whole _ _ hrun
  have htr := fun w => ntr_ress hro k w p d l hb hnl 0 false [] PSt.init
  obtain ⟨cm1, p1, is1, log1, d1, hcm1, hn1, -, -, hb1, hit, hpl, -⟩ := formatTree_content h2
  rw [hcm] at hcm1; cases hcm1
  rw [hn] at hn1; cases hn1
  rw [hb] at hb1; cases hb1
  have hgo := groupOnly_of_items hit
  refine ⟨d, ⟨allText_and d (tr_texts w d hgo 0 false [] PSt.init (ends_text (htr w) hrun)) hpl.2, hgo⟩, fun w => ?_, fun w' => ?_⟩
  · exact ends_steady (htr w) (a := .N) ⟨rfl, rfl, rfl⟩ hrun
  · cases h3 : formatTree checks depth ⟨w', k⟩ root with
    | error e =>
      rw [((C01_max_width_only_whitespace checks depth root k w w').1 e).2 h3] at h
      cases h
    | ok out' =>
      obtain ⟨cm', p', is', log', d', hcm', hn', -, -, hb', -, -, hout'⟩ := formatTree_content ((key depth ⟨w', k⟩ out').1 h3)
      rw [hcm] at hcm'; cases hcm'
      rw [hn] at hn'; cases hn'
      rw [hb] at hb'; cases hb'
      rw [hout']

end Width
end Afmt
