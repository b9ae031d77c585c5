import Verif.Width.Printer
import Verif.Trail.Text
import Verif.PropsBody

/-!
# Formatting at two widths

The operations performed for a program without comments, and the texts of its document.
-/

namespace Afmt
namespace Width

open Prog Gram
open Afmt.Lines (Sym Silent Res Ress syms symss puncDocs_silent silent_of retext retext_skel retext_ids retext_closed retext_plain plain_all)
open Afmt.Trail hiding T fl

mutual
theorem allText_and {P Q : Str → Nat → Prop} : ∀ (d : Doc), d.AllText P → d.AllText Q → d.AllText (fun s n => P s n ∧ Q s n)
  | .text _ _, h, h' => ⟨h, h'⟩
  | .newline, _, _ | .newlineWithNoIndent, _, _ | .softline, _, _ | .maybeline, _, _ | .forceBreak, _, _ => trivial
  | .flat d, h, h' | .indent _ d, h, h' | .dedent _ d, h, h' => allText_and d h h'
  | .concat ds, h, h' => allTexts_and ds h h'
  | .choice x y, h, h' => ⟨allText_and x h.1 h'.1, allText_and y h.2 h'.2⟩
theorem allTexts_and {P Q : Str → Nat → Prop} : ∀ (ds : List Doc), Doc.AllTexts P ds → Doc.AllTexts Q ds →
    Doc.AllTexts (fun s n => P s n ∧ Q s n) ds
  | [], _, _ => trivial
  | d :: ds, h, h' => ⟨allText_and d h.1 h'.1, allTexts_and ds h.2 h'.2⟩
end

mutual
/-- The trace of a program without comments consists of operations its symbols stand for. -/
theorem tr_ress {cm : CMap} (hs : Silent cm) (k w : Nat) : ∀ (p : Prog) (d : Doc) (l : List Comment),
    p.build k cm = .ok (d, l) → ∀ (i : Nat) (fl : Bool) (rest : List Chunk) (st : PSt),
    Ress (syms p) (tr w d i fl rest st)
  | .txt s, d, l, h, i, fl, rest, st => by
    rw [Prog.build] at h; cases h
    exact .one (.txt s _)
  | .nl, d, l, h, i, fl, rest, st => by
    rw [Prog.build] at h; cases h
    exact .one (.pendm i)
  | .softline, d, l, h, i, fl, rest, st => by
    rw [Prog.build] at h; cases h
    cases fl
    · exact .one (.pend i)
    · exact .one .space
  | .maybeline, d, l, h, i, fl, rest, st => by
    rw [Prog.build] at h; cases h
    cases fl
    · exact .one (.pendm i)
    · exact .one .none
  | .forceBreak, d, l, h, i, fl, rest, st => by
    rw [Prog.build] at h; cases h
    exact .nil
  | .sep b, d, l, h, i, fl, rest, st => by
    rw [Prog.build] at h; cases h
    cases b
    · exact .one (.line i)
    · exact .one (.blank i)
  | .concat ps, d, l, h, i, fl, rest, st => by
    rw [Prog.build] at h
    cases hb : Prog.builds k cm ps with
    | error e => rw [hb] at h; cases h
    | ok a =>
      rw [hb] at h; cases h
      rw [tr, syms]
      exact trs_ress hs k w ps a.1 a.2 hb i fl rest st
  | .group p, d, l, h, i, fl, rest, st => by
    rw [Prog.build] at h
    cases hb : Prog.build k cm p with
    | error e => rw [hb] at h; cases h
    | ok a =>
      rw [hb] at h; cases h
      have key : ∀ fl', Ress (syms (.group p)) (.flush :: tr w a.1 i fl' rest st.flush) := by
        intro fl'
        rw [syms]
        exact .cons .flush (tr_ress hs k w p a.1 a.2 hb i fl' rest st.flush)
      simp only [Afmt.group, tr]
      split
      · exact key true
      · split
        · exact key true
        · exact key fl
  | .indent p, d, l, h, i, fl, rest, st => by
    rw [Prog.build] at h
    cases hb : Prog.build k cm p with
    | error e => rw [hb] at h; cases h
    | ok a =>
      rw [hb] at h; cases h
      rw [syms, indentDoc, tr]
      exact tr_ress hs k w p a.1 a.2 hb _ fl rest st
  | .dedent p, d, l, h, i, fl, rest, st => by
    rw [Prog.build] at h
    cases hb : Prog.build k cm p with
    | error e => rw [hb] at h; cases h
    | ok a =>
      rw [hb] at h; cases h
      rw [syms, dedentDoc, tr]
      exact tr_ress hs k w p a.1 a.2 hb _ fl rest st
  | .pre id, d, l, h, i, fl, rest, st => by
    rw [Prog.build] at h
    cases hb : getBucket cm id with
    | error e => rw [hb] at h; cases h
    | ok b => rw [hb] at h; cases h; rw [(hs _ _ hb).1]; exact .nil
  | .post id, d, l, h, i, fl, rest, st => by
    rw [Prog.build] at h
    cases hb : getBucket cm id with
    | error e => rw [hb] at h; cases h
    | ok b => rw [hb] at h; cases h; rw [(hs _ _ hb).2.1]; exact .nil
  | .rootDangling id, d, l, h, i, fl, rest, st => by
    rw [Prog.build] at h
    cases hb : getBucket cm id with
    | error e => rw [hb] at h; cases h
    | ok b => rw [hb] at h; cases h; rw [(hs _ _ hb).2.2]; exact .nil
  | .dangling id, d, l, h, i, fl, rest, st => by
    rw [Prog.build] at h
    cases hb : getBucket cm id with
    | error e => rw [hb] at h; cases h
    | ok b =>
      rw [hb] at h
      dsimp only at h
      rw [if_pos (hs _ _ hb).2.2] at h
      cases h
  | .punct p, d, l, h, i, fl, rest, st => by
    rw [Prog.build] at h
    cases hb : getBucket cm p.id with
    | error e => rw [hb] at h; cases h
    | ok b =>
      rw [hb] at h; cases h
      rw [puncDocs_silent (hs _ _ hb).1 (hs _ _ hb).2.1]
      exact .one (.txt p.text _)
  | .ifDangling id p q, d, l, h, i, fl, rest, st => by
    rw [Prog.build] at h
    cases hb : getBucket cm id with
    | error e => rw [hb] at h; cases h
    | ok b =>
      rw [hb] at h
      dsimp only at h
      rw [if_neg (by simp [(hs _ _ hb).2.2])] at h
      rw [syms]; exact tr_ress hs k w q d l h i fl rest st
  | .fail e, d, l, h, i, fl, rest, st => by rw [Prog.build] at h; cases h
theorem trs_ress {cm : CMap} (hs : Silent cm) (k w : Nat) : ∀ (ps : List Prog) (ds : List Doc) (l : List Comment),
    Prog.builds k cm ps = .ok (ds, l) → ∀ (i : Nat) (fl : Bool) (rest : List Chunk) (st : PSt),
    Ress (symss ps) (trs w ds i fl rest st)
  | [], ds, l, h, i, fl, rest, st => by
    rw [Prog.builds] at h; cases h
    exact .nil
  | p :: ps, ds, l, h, i, fl, rest, st => by
    rw [Prog.builds] at h
    cases h1 : Prog.build k cm p with
    | error e => rw [h1] at h; cases h
    | ok a =>
      rw [h1] at h
      cases h2 : Prog.builds k cm ps with
      | error e => rw [h2] at h; cases h
      | ok b =>
        rw [h2] at h; cases h
        rw [symss, trs]
        exact (tr_ress hs k w p a.1 a.2 h1 i fl _ st).append (trs_ress hs k w ps b.1 b.2 h2 i fl rest _)
end

mutual
/-- Every text of a document without comments is that of a symbol. -/
theorem texts_of {cm : CMap} (hs : Silent cm) (k : Nat) : ∀ (p : Prog) (d : Doc) (l : List Comment),
    p.build k cm = .ok (d, l) → d.AllText (fun s _ => Sym.txt s ∈ syms p)
  | .txt s, d, l, h => by
    rw [Prog.build] at h; cases h
    simp [Afmt.txt, Doc.AllText, syms]
  | .nl, d, l, h | .softline, d, l, h | .maybeline, d, l, h | .forceBreak, d, l, h => by
    rw [Prog.build] at h; cases h; trivial
  | .sep b, d, l, h => by
    rw [Prog.build] at h; cases h
    cases b
    · trivial
    · exact ⟨trivial, trivial, trivial⟩
  | .concat ps, d, l, h => by
    rw [Prog.build] at h
    cases hb : Prog.builds k cm ps with
    | error e => rw [hb] at h; cases h
    | ok a =>
      rw [hb] at h; cases h
      rw [syms]
      exact textss_of hs k ps a.1 a.2 hb
  | .group p, d, l, h => by
    rw [Prog.build] at h
    cases hb : Prog.build k cm p with
    | error e => rw [hb] at h; cases h
    | ok a =>
      rw [hb] at h; cases h
      have := Doc.AllText.mono (Q := fun s _ => Sym.txt s ∈ syms (.group p)) (fun s _ h => by rw [syms]; exact List.mem_cons_of_mem _ h) _ (texts_of hs k p a.1 a.2 hb)
      exact ⟨this, this⟩
  | .indent p, d, l, h | .dedent p, d, l, h => by
    rw [Prog.build] at h
    cases hb : Prog.build k cm p with
    | error e => rw [hb] at h; cases h
    | ok a =>
      rw [hb] at h; cases h
      rw [syms]
      exact texts_of hs k p a.1 a.2 hb
  | .pre id, d, l, h => by
    rw [Prog.build] at h
    cases hb : getBucket cm id with
    | error e => rw [hb] at h; cases h
    | ok b => rw [hb] at h; cases h; rw [(hs _ _ hb).1]; trivial
  | .post id, d, l, h => by
    rw [Prog.build] at h
    cases hb : getBucket cm id with
    | error e => rw [hb] at h; cases h
    | ok b => rw [hb] at h; cases h; rw [(hs _ _ hb).2.1]; trivial
  | .rootDangling id, d, l, h => by
    rw [Prog.build] at h
    cases hb : getBucket cm id with
    | error e => rw [hb] at h; cases h
    | ok b => rw [hb] at h; cases h; rw [(hs _ _ hb).2.2]; trivial
  | .dangling id, d, l, h => by
    rw [Prog.build] at h
    cases hb : getBucket cm id with
    | error e => rw [hb] at h; cases h
    | ok b =>
      rw [hb] at h
      dsimp only at h
      rw [if_pos (hs _ _ hb).2.2] at h
      cases h
  | .punct p, d, l, h => by
    rw [Prog.build] at h
    cases hb : getBucket cm p.id with
    | error e => rw [hb] at h; cases h
    | ok b =>
      rw [hb] at h; cases h
      rw [puncDocs_silent (hs _ _ hb).1 (hs _ _ hb).2.1]
      simp [Afmt.txt, Doc.AllText, Doc.AllTexts, syms]
  | .ifDangling id p q, d, l, h => by
    rw [Prog.build] at h
    cases hb : getBucket cm id with
    | error e => rw [hb] at h; cases h
    | ok b =>
      rw [hb] at h
      dsimp only at h
      rw [if_neg (by simp [(hs _ _ hb).2.2])] at h
      rw [syms]; exact texts_of hs k q d l h
  | .fail e, d, l, h => by rw [Prog.build] at h; cases h
theorem textss_of {cm : CMap} (hs : Silent cm) (k : Nat) : ∀ (ps : List Prog) (ds : List Doc) (l : List Comment),
    Prog.builds k cm ps = .ok (ds, l) → Doc.AllTexts (fun s _ => Sym.txt s ∈ symss ps) ds
  | [], ds, l, h => by rw [Prog.builds] at h; cases h; trivial
  | p :: ps, ds, l, h => by
    rw [Prog.builds] at h
    cases h1 : Prog.build k cm p with
    | error e => rw [h1] at h; cases h
    | ok a =>
      rw [h1] at h
      cases h2 : Prog.builds k cm ps with
      | error e => rw [h2] at h; cases h
      | ok b =>
        rw [h2] at h; cases h
        rw [symss]
        refine ⟨Doc.AllText.mono (fun s _ h => List.mem_append_left _ h) _ (texts_of hs k p a.1 a.2 h1), ?_⟩
        rw [Doc.allTexts_iff]
        exact fun d hd => Doc.AllText.mono (fun s _ h => List.mem_append_right _ h) _
          (Doc.allTexts_iff.1 (textss_of hs k ps b.1 b.2 h2) d hd)
end

/-! ### What the machine says -/

theorem run_text {s : Str} : ∀ {xs : List Sym} {a : St}, @run Gate.whole a xs ≠ .bad → Sym.txt s ∈ xs → '\n' ∉ s
  | x :: xs, a, h, hm => by
    have h : @run Gate.whole (@step Gate.whole a x) xs ≠ .bad := h
    rcases List.mem_cons.1 hm with e | hm
    · have hb : @tx Gate.whole a s ≠ .bad := by
        intro e'; rw [← e] at h; apply h
        show @run Gate.whole (@tx Gate.whole a s) xs = _
        rw [e', @run_bad Gate.whole]
      have ha : a ≠ .bad := by rintro rfl; exact hb rfl
      rw [@tx_of Gate.whole a ha] at hb
      cases s with
      | nil => simp
      | cons c t =>
        rw [if_neg (by simp)] at hb
        split at hb
        · rename_i hc
          rw [Bool.and_eq_true, Bool.and_eq_true, Bool.and_eq_true] at hc
          have : (!List.contains (c :: t) '\n') = true := hc.2.1
          simpa using this
        · exact absurd rfl hb
    · exact run_text h hm

/-- As long as the machine does not go bad, no blank is left out except at the start of a line. -/
theorem run_steady {xs : List Sym} {ops : List Op} (h : Ress xs ops) : ∀ {a : St} {st : PSt}, Rel a st →
    @run Gate.whole a xs ≠ .bad → steady ops st = true := by
  induction h with
  | nil => intro a st h _; rfl
  | @cons x xs o os hx hr ih =>
    intro a st h1 h3
    rw [steady_append, Bool.and_eq_true]
    have hb : @step Gate.whole a x ≠ .bad := by
      intro e; apply h3
      show @run Gate.whole (@step Gate.whole a x) xs = _
      rw [e, @run_bad Gate.whole]
    have hone : @run Gate.whole a [x] ≠ .bad := hb
    have hrel := @run_rel Gate.whole _ _ (Ress.one hx) a st h1 hone
    refine ⟨?_, ih hrel h3⟩
    cases hx with
    | txt s n =>
      rw [steady, steady, Bool.and_true, keeps, Bool.not_eq_true']
      cases hs : s == [' '] with
      | false => rfl
      | true =>
        have hs' : s = [' '] := by simpa using hs
        subst hs'
        rw [Bool.true_and]
        cases hp : st.pend with
        | some i => rfl
        | none =>
          show endsWithSpace st.out = false
          apply ends_blank
          cases a with
          | N => exact h1.2.1
          | M => exact h1.2
          | bad => exact h1.elim
          | B => exact absurd (by decide) hb
          | L => exact absurd (by decide) hb
    | _ => rfl

/-- The document of a tree without comments: at every width the tree is formatted as its layout, and the printer's
machine accepts its program. -/
theorem format_whole {checks : Bool} {depth k w : Nat} {root : Node} {out : Str} (hcl : root.Closed)
    (hi : root.ids.Nodup) (hf : root.field = none) (hc : conforms root = true) (hx : plain root = true)
    (ht : crispsBy (@admitted Gate.whole) "parser_output" none root.children = true) (hu : updates root = true)
    (h : formatTree checks depth ⟨w, k⟩ root = .ok out) :
    ∃ d, Good d ∧ (∀ w, Steady w d) ∧ ∀ w, formatTree checks depth ⟨w, k⟩ root = .ok (layout w d) := by
  letI := Gate.whole
  obtain ⟨hk, hnm, hex, hcf⟩ := conforms_root hc
  obtain ⟨-, htt, hsk⟩ := @tame_tree Gate.whole _ checks hf hc hx ht hu
  have hi1 : (retext ['x'] root).ids.Nodup := by rw [retext_ids]; exact hi
  have hn1 : (retext ['x'] root).named = true := by cases root; exact hnm
  have he1 : (retext ['x'] root).extra = false := by cases root; exact hex
  have hx1 := retext_plain ['x'] hx
  have key : ∀ w out, formatTree checks depth ⟨w, k⟩ root = .ok out ↔
      formatTree checks depth ⟨w, k⟩ (@tame Gate.whole (retext ['x'] root)) = .ok out := by
    intro w out
    rw [← C50_only_the_skeleton_matters _ _ checks (retext_skel ['x'] hk hex hf) hi1 hi depth ⟨w, k⟩ out,
      ← C50_only_the_skeleton_matters _ _ checks hsk (by rw [tame_ids]; exact hi1) hi1 depth ⟨w, k⟩ out]
  have h2 := (key w out).1 h
  obtain ⟨cm, p, is, log, d, hcm, hn, -, -, hb, hit, hpl, hout⟩ := formatTree_content h2
  have hnil := (C14_every_comment_attached_once _ (tame_closed _ (retext_closed ['x'] hcl)) (by rw [tame_named, hn1])
    (by rw [tame_extra, he1])).2 cm hcm
  rw [plain_extras _ (by rw [tame_plain]; exact hx1)] at hnil
  have hsil := silent_of (show cm.all = [] by simpa using hnil)
  have hrun := root_run htt hn
  refine ⟨d, ⟨?_, groupOnly_of_items hit⟩, fun w => ?_, fun w' => ?_⟩
  · have h1 := Doc.AllText.mono (fun s _ h => run_text hrun h) _ (texts_of hsil k p d log hb)
    exact allText_and d h1 hpl.2
  · exact run_steady (tr_ress hsil k w p d log hb 0 false [] PSt.init) (a := .N) ⟨rfl, rfl, rfl⟩ hrun
  · cases h3 : formatTree checks depth ⟨w', k⟩ root with
    | error e =>
      rw [((C01_max_width_only_whitespace checks depth root k w w').1 e).2 h3] at h
      cases h
    | ok out' =>
      obtain ⟨cm', p', is', log', d', hcm', hn', -, -, hb', -, -, hout'⟩ := formatTree_content ((key w' out').1 h3)
      rw [hcm] at hcm'; cases hcm'
      rw [hn] at hn'; cases hn'
      rw [hb] at hb'; cases hb'
      rw [hout']

end Width
end Afmt
