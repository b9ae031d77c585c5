import Verif.Levels.Step
import Verif.Ends.Done

/-!
# The columns of the formatted text
-/

namespace Afmt.Levels
open Gram hiding inner full
open Prog New
open Afmt.Lines (All All2 retext retext_skel retext_ids retext_closed retext_conforms retext_children P_get)
open Afmt.Notes (Role Roles PreRoles PostRoles bucketOf KidsB Sound Sym Br BktOk Found linesOf roleOf roles_of Both)
open Afmt.Ends (St mend mends mends_eq prim prims Fact Called fairOf)

/-! ### What a program begins with -/

/-- Lines of comments have no line breaks, and are empty only after a line break. -/
def Neat : Bool → List Mk → Prop
  | _, [] => True
  | b, .note s :: xs => '\n' ∉ s ∧ (b = false → s ≠ []) ∧ Neat false xs
  | _, .line _ _ :: xs => Neat true xs
  | _, .code _ :: xs | _, .flush :: xs | _, .soft _ :: xs | _, .sep _ _ :: xs | _, .eol _ :: xs => Neat false xs

theorem Neat.weak {xs : List Mk} (h : Neat false xs) (b : Bool) : Neat b xs := by
  cases xs with
  | nil => trivial
  | cons x xs =>
    cases x with
    | note s => exact ⟨h.1, fun _ => h.2.1 rfl, h.2.2⟩
    | _ => exact h

theorem Neat.append : ∀ {xs ys : List Mk} {b : Bool}, Neat b xs → Neat false ys → Neat b (xs ++ ys)
  | [], _, b, _, h => h.weak b
  | .note s :: xs, _, _, h, h' => ⟨h.1, h.2.1, h.2.2.append h'⟩
  | .line _ _ :: xs, _, _, h, h' => Neat.append (xs := xs) h h'
  | .code _ :: xs, _, _, h, h' | .flush :: xs, _, _, h, h' | .soft _ :: xs, _, _, h, h' | .sep _ _ :: xs, _, _, h, h'
  | .eol _ :: xs, _, _, h, h' => Neat.append (xs := xs) h h'

theorem Neat.left : ∀ {xs ys : List Mk} {b : Bool}, Neat b (xs ++ ys) → Neat b xs
  | [], _, _, _ => trivial
  | .note s :: xs, _, _, h => ⟨h.1, h.2.1, Neat.left (xs := xs) h.2.2⟩
  | .line _ _ :: xs, _, _, h => Neat.left (xs := xs) h
  | .code _ :: xs, _, _, h | .flush :: xs, _, _, h | .soft _ :: xs, _, _, h | .sep _ _ :: xs, _, _, h
  | .eol _ :: xs, _, _, h => Neat.left (xs := xs) h

theorem Neat.right {e : Bool} {i : Nat} : ∀ {xs ys : List Mk} {b : Bool}, Neat b (xs ++ [.sep e i] ++ ys) → Neat false ys
  | [], _, _, h => h
  | .note s :: xs, _, _, h => Neat.right (xs := xs) h.2.2
  | .line _ _ :: xs, _, _, h => Neat.right (xs := xs) h
  | .code _ :: xs, _, _, h | .flush :: xs, _, _, h | .soft _ :: xs, _, _, h | .sep _ _ :: xs, _, _, h
  | .eol _ :: xs, _, _, h => Neat.right (xs := xs) h

theorem lineMks_neat (i : Nat) : ∀ (ls : List Str) (b : Bool), (∀ l ∈ ls, '\n' ∉ l) → (b = false → ls.head? ≠ some []) →
    Neat b (lineMks i ls)
  | [], _, _, _ => trivial
  | [l], b, h, h' => ⟨h l List.mem_cons_self, fun hb e => h' hb (by rw [e]; rfl), trivial⟩
  | l :: l' :: ls, b, h, h' => by
    refine ⟨h l List.mem_cons_self, fun hb e => h' hb (by rw [e]; rfl), ?_⟩
    exact lineMks_neat i (l' :: ls) true (fun x hx => h x (List.mem_cons_of_mem _ hx)) (fun hb => nomatch hb)

theorem comMks_neat {c : Comment} (h : Sound c) (i : Nat) (r : Role) : Neat false (comMks i r c) := by
  have ht : Neat false (textMks i c) := by
    obtain ⟨l, ls, e, hl⟩ := h.first
    have hh := h.lines
    unfold textMks
    unfold linesOf at e hh
    split
    · rename_i hc
      rw [hc] at e hh
      cases e
      refine ⟨hh _ List.mem_cons_self, fun _ e => hl (by rw [e]; rfl), trivial⟩
    · rename_i hc
      rw [hc] at e hh
      refine lineMks_neat i _ false hh (fun _ e' => ?_)
      have e : blockLines c.value = l :: ls := e
      rw [e] at e'
      cases e'
      exact hl rfl
  unfold comMks
  refine Neat.append ?_ ?_
  · split
    · exact ht
    · exact ht
    · trivial
  · split <;> trivial

theorem comsMks_neat (i : Nat) (ro : Comment → Role) : ∀ cs : List Comment, (∀ c ∈ cs, Sound c) →
    Neat false (cs.flatMap (fun c => comMks i (ro c) c))
  | [], _ => trivial
  | c :: cs, h => by
    rw [List.flatMap_cons]
    exact (comMks_neat (h c List.mem_cons_self) i _).append (comsMks_neat i ro cs (fun d hd => h d (List.mem_cons_of_mem _ hd)))

mutual
theorem marked_neat {ro : Comment → Role} {cm : CMap} (hk : ∀ i, BktOk (bucketOf cm i)) (k : Nat) : ∀ (p : Prog) (i : Nat),
    Neat false (marked ro cm k i p)
  | .txt s, i | .nl, i | .softline, i | .maybeline, i | .forceBreak, i | .sep b, i
  | .dangling _, i | .rootDangling _, i | .fail _, i | .punct _, i => by rw [marked]; trivial
  | .pre id, i => by rw [marked]; exact comsMks_neat i ro _ (fun c hc => ((hk id).pre c hc).2.2)
  | .post id, i => by rw [marked]; exact comsMks_neat i ro _ (fun c hc => ((hk id).post c hc).2.2)
  | .concat ps, i => by rw [marked]; exact markeds_neat hk k ps i
  | .group p, i => by rw [marked]; exact marked_neat hk k p i
  | .indent p, i | .dedent p, i => by rw [marked]; exact marked_neat hk k p _
  | .ifDangling _ _ q, i => by rw [marked]; exact marked_neat hk k q i
theorem markeds_neat {ro : Comment → Role} {cm : CMap} (hk : ∀ i, BktOk (bucketOf cm i)) (k : Nat) : ∀ (ps : List Prog) (i : Nat),
    Neat false (markeds ro cm k i ps)
  | [], i => by rw [markeds]; trivial
  | p :: ps, i => by rw [markeds]; exact (marked_neat hk k p i).append (markeds_neat hk k ps i)
end

/-- The comments before a node end with a line break. -/
theorem pre_shape {ro : Comment → Role} {i : Nat} : ∀ {cs : List Comment} {b : Bool}, PreRoles ro b cs →
    cs.flatMap (fun c => comMks i (ro c) c) = [] ∨ ∃ xs e, cs.flatMap (fun c => comMks i (ro c) c) = xs ++ [.sep e i]
  | [], _, _ => .inl rfl
  | [c], _, h => by
    have h0 := h.2.2.2.1
    rw [if_pos rfl] at h0
    rw [List.flatMap_singleton, comMks, h0]
    exact .inr ⟨_, _, rfl⟩
  | c :: d :: cs, _, h => by
    rw [List.flatMap_cons]
    rcases pre_shape (i := i) h.2.2.2.2 with h' | ⟨xs, e, h'⟩
    · have h0 := h.2.2.2.2
      exfalso
      rw [List.flatMap_cons, List.append_eq_nil_iff] at h'
      have := h'.1
      unfold comMks at this
      rw [h0.2.2.1] at this
      simp at this
    · exact .inr ⟨comMks i (ro c) c ++ xs, e, by rw [h', List.append_assoc]⟩

/-- The machine for blanks at the edges of lines. -/
abbrev runE (a : St) (xs : List Sym) : St := @Ends.run Trail.Gate.edges a xs

theorem tx_blank {c : Char} {cs : Str} (h : isBlank c = true) : @Ends.tx Trail.Gate.edges .L (c :: cs) = .bad := by
  simp only [isBlank, Bool.or_eq_true, beq_iff_eq] at h
  rcases h with rfl | rfl
  · simp [Ends.tx, Trail.front, Ends.fine, Trail.lead, Trail.Gate.on]
  · simp [Ends.tx, Trail.front]

/-- What the machine accepts at the beginning of a line begins with a visible character. -/
theorem run_starts : ∀ xs : List Mk, Neat false xs → runE .L (xs.map Mk.sym) ≠ .bad → Starts (xs.flatMap evS)
  | [], _, _ => .inl rfl
  | x :: xs, hn, h => by
    have e : runE .L ((x :: xs).map Mk.sym) = runE (@Ends.step Trail.Gate.edges .L x.sym) (xs.map Mk.sym) := rfl
    rw [e] at h
    rw [List.flatMap_cons]
    cases x with
    | flush => exact run_starts xs hn h
    | soft m => exact absurd (by cases m <;> exact @Ends.run_bad Trail.Gate.edges _) h
    | line k i => exact absurd (by cases k <;> exact @Ends.run_bad Trail.Gate.edges _) h
    | sep b i => exact absurd (@Ends.run_bad Trail.Gate.edges _) h
    | eol s => exact absurd (@Ends.run_bad Trail.Gate.edges _) h
    | code s =>
      cases s with
      | nil => exact run_starts xs hn h
      | cons c cs =>
        have hc : isBlank c = false := by
          cases hb : isBlank c with
          | false => rfl
          | true =>
            refine absurd ?_ h
            rw [show @Ends.step Trail.Gate.edges .L (Mk.code (c :: cs)).sym = .bad from tx_blank hb]
            exact @Ends.run_bad Trail.Gate.edges _
        refine .inr (.inl ⟨List.replicate (ink cs).length .chr ++ xs.flatMap evS, ?_⟩)
        simp [evS, evT, ink, hc, List.replicate_succ]
    | note s =>
      cases s with
      | nil => exact absurd rfl (hn.2.1 rfl)
      | cons c cs =>
        have hc : isBlank c = false := by
          cases hb : isBlank c with
          | false => rfl
          | true =>
            refine absurd ?_ h
            rw [show @Ends.step Trail.Gate.edges .L (Mk.note (c :: cs)).sym = .bad from tx_blank hb]
            exact @Ends.run_bad Trail.Gate.edges _
        have hsp : (c == ' ') = false := by
          simp only [isBlank, Bool.or_eq_false_iff] at hc
          exact hc.1
        refine .inr (.inr ⟨List.replicate (ink cs).length .note ++ xs.flatMap evS, ?_⟩)
        rw [evS, if_neg hn.1]
        simp [written, ink, hc, List.replicate_succ, hsp]

theorem reach_in {root : Node} {x : Loc} (h : Reach root x) : In root x := by
  induction h with
  | root => exact .root
  | kid _ _ hx _ ih => exact .child ih hx

/-- A text that is no text of a line is not accepted. -/
theorem no_break {a : St} : ∀ {xs : List Sym}, runE a xs ≠ .bad → Sym.txt ['\n'] ∉ xs
  | [], _, h => by cases h
  | x :: xs, hr, h => by
    have e : runE a (x :: xs) = runE (@Ends.step Trail.Gate.edges a x) xs := rfl
    rw [e] at hr
    rcases List.mem_cons.1 h with rfl | h
    · refine hr ?_
      have : @Ends.step Trail.Gate.edges a (.txt ['\n']) = .bad := by cases a <;> simp [Ends.step, Ends.tx, Trail.front]
      rw [this]
      exact @Ends.run_bad Trail.Gate.edges _
    · exact no_break hr h

/-- Programs the machine accepts begin with a visible character after the comments before the node. -/
theorem fresh_of {ro : Comment → Role} {cm : CMap} (hs : Roles ro cm) (hk : ∀ i, BktOk (bucketOf cm i)) {k : Nat} {x : Loc} {p : Prog}
    (h : runE .L (Notes.syms ro cm p) ≠ .bad) : Fresh ro cm k x p := by
  intro Y hY i
  have hm := marked_syms ro cm k p i (no_break h)
  have hn := marked_neat (ro := ro) hk k p i
  rw [hY i] at hm hn
  rw [marked] at hm hn
  have hbad : ∀ {a : St} {xs ys : List Sym}, runE a (xs ++ ys) ≠ .bad → runE a xs ≠ .bad := by
    intro a xs ys h e
    refine h ?_
    show @Ends.run Trail.Gate.edges a (xs ++ ys) = .bad
    rw [@Ends.run_append Trail.Gate.edges, show @Ends.run Trail.Gate.edges a xs = .bad from e]
    exact @Ends.run_bad Trail.Gate.edges _
  rw [← hm, List.map_append] at h
  have h := hbad h
  have hn := hn.left
  rcases pre_shape (i := i) (hs.pre x.id) with h0 | ⟨xs, e, h0⟩
  · rw [h0] at hn h
    exact run_starts _ hn h
  · rw [h0] at hn h
    have hn := hn.right
    refine run_starts _ hn (fun hb => h ?_)
    show @Ends.run Trail.Gate.edges .L _ = .bad
    rw [List.map_append, List.map_append, @Ends.run_append Trail.Gate.edges, @Ends.run_append Trail.Gate.edges]
    generalize @Ends.run Trail.Gate.edges .L (xs.map Mk.sym) = a
    show @Ends.run Trail.Gate.edges (Ends.brl a) _ = .bad
    cases a <;> first | exact hb | exact @Ends.run_bad Trail.Gate.edges _

/-! ### Trees -/

attribute [local instance] Trail.Gate.edges

theorem all_and {P Q : Node → Prop} {n : Node} (h : All P n) (h' : All Q n) : All (fun x => P x ∧ Q x) n := by
  induction h with
  | mk h _ ih => exact .mk ⟨h, h'.here⟩ (fun c hc => ih c hc (h'.kid hc))

mutual
theorem regulars_all : ∀ n : Node, regulars n = true → All (fun x => regular x.kind x.children = true) n
  | .mk id kind named extra err field sr er sb eb text children, h => by
    rw [regulars, Bool.and_eq_true] at h
    exact .mk h.1 (regularss_all children h.2)
theorem regularss_all : ∀ ns : List Node, regularss ns = true → ∀ c ∈ ns, All (fun x => regular x.kind x.children = true) c
  | [], _, c, hc => by cases hc
  | n :: ns, h, c, hc => by
    rw [regularss, Bool.and_eq_true] at h
    rcases List.mem_cons.1 hc with e | hc
    · rw [e]; exact regulars_all n h.1
    · exact regularss_all ns h.2 c hc
end

theorem retext_regulars {root : Node} (t : Str) (h : regulars root = true) : regulars (retext t root) = true := by
  cases root; exact h

theorem retext_nested {root : Node} (t : Str) (k i : Nat) (he : root.extra = false) (h : root.children ≠ []) :
    nested k i (retext t root) = nested k i root := by
  cases root with
  | mk id kind named extra err field sr er sb eb text children =>
    cases children with
    | nil => exact absurd rfl h
    | cons c cs =>
      simp only at he
      subst he
      simp only [retext, nested, Bool.false_eq_true, if_false, List.isEmpty_cons]

theorem mend_lay (kind : String) (ns : List Node) : lay kind (ns.map mend) = lay kind ns := by
  simp only [lay, List.any_map, List.all_map, Function.comp_def, Ends.mend_children, Ends.mend_field, Ends.mend_kind]

theorem mend_place (k i : Nat) (l : Lay) (c : Node) : place k i l (mend c) = place k i l c := by
  simp only [place, Ends.mend_named, Ends.mend_field, Ends.mend_kind]

theorem mend_opening (k i : Nat) (l : Lay) (p : Option Node) (c : Node) : opening k i l (p.map mend) (mend c) = opening k i l p c := by
  unfold opening
  rw [mend_place]
  cases p with
  | none => rfl
  | some q => simp only [Option.map_some, Option.any_some, Ends.mend_atEnd]

mutual
theorem mend_nested (k : Nat) : ∀ (pk : String) (pf : Option String) (n : Node) (i : Nat), @prim Trail.Gate.edges pk pf n = true →
    nested k i (mend n) = nested k i n
  | pk, pf, .mk id kind named extra err field sr er sb eb text children, i, h => by
    cases extra with
    | true =>
      have hd := Ends.mend_drawn (n := .mk id kind named true err field sr er sb eb text children) rfl
      rw [mend] at hd ⊢
      rw [if_pos rfl] at hd
      rw [nested, nested, if_pos rfl, if_pos rfl, if_pos rfl, hd]
    | false =>
      cases children with
      | nil =>
        have hs := @Ends.mend_same Trail.Gate.edges _ _ _ h (.inr (.inr rfl))
        rw [mend] at hs ⊢
        rw [mends_eq, List.map_nil, nested, nested]
        simp only [Node.text] at hs
        simp only [Bool.false_eq_true, if_false, List.isEmpty_nil, if_true] at hs ⊢
        rw [hs]
      | cons c cs =>
        have h2 : @prims Trail.Gate.edges kind field (c :: cs) = true := by
          unfold prim primBy at h
          simp only [Bool.and_eq_true] at h
          exact h.2
        rw [mend, mends_eq, nested, nested, mend_lay]
        have := mend_nesteds k kind field (c :: cs) i (lay kind (c :: cs)) none h2
        simp only [Bool.false_eq_true, if_false, List.isEmpty_cons, List.map_cons] at this ⊢
        exact this
theorem mend_nesteds (k : Nat) : ∀ (pk : String) (pf : Option String) (ns : List Node) (i : Nat) (l : Lay) (p : Option Node),
    @prims Trail.Gate.edges pk pf ns = true → nesteds k i l (p.map mend) (ns.map mend) = nesteds k i l p ns
  | _, _, [], i, l, p, _ => by rw [List.map_nil, nesteds, nesteds]
  | pk, pf, c :: cs, i, l, p, h => by
    unfold prims primsBy at h
    rw [Bool.and_eq_true] at h
    rw [List.map_cons, nesteds, nesteds, mend_opening, mend_place, mend_nested k pk pf c _ h.1, Ends.mend_named]
    have := mend_nesteds k pk pf cs i l (if c.named then some c else p) h.2
    rw [← this]
    cases c.named <;> rfl
end

mutual
theorem mend_flowing : ∀ n : Node, flowing (mend n) = flowing n
  | .mk id kind named extra err field sr er sb eb text children => by
    rw [mend, flowing, flowing, mends_eq, mend_lay, mend_flowings children]
theorem mend_flowings : ∀ ns : List Node, flowings (ns.map mend) = flowings ns
  | [] => rfl
  | n :: ns => by rw [List.map_cons, flowings, flowings, mend_flowing n, mend_flowings ns]
end

theorem mend_closeRows (c d : Node) (ds : List Node) : closeRows (mend c) (mend d) (ds.map mend) = closeRows c d ds := by
  unfold closeRows
  rw [Ends.mend_atEnd, Ends.mend_endRow, Ends.mend_startRow, Ends.mend_endRow]
  cases ds with
  | nil => rfl
  | cons e es => simp only [List.map_cons, List.head?_cons, Option.all_some, Ends.mend_startRow]

theorem mend_regular (kind : String) (ns : List Node) : regular kind (ns.map mend) = regular kind ns := by
  have hd : ∀ ns : List Node, (ns.map mend).dropWhile (fun c => c.extra) = (ns.dropWhile (fun c => c.extra)).map mend := by
    intro ns
    induction ns with
    | nil => rfl
    | cons n ns ih =>
      rw [List.map_cons, List.dropWhile_cons, List.dropWhile_cons, Ends.mend_extra, ih]
      split <;> rfl
  unfold regular
  rw [mend_lay, List.filter_map, hd]
  simp only [List.all_map, Function.comp_def, Ends.mend_field, Ends.mend_kind, Ends.mend_named, mend_flowing]
  congr 3
  generalize (ns.filter (fun c => c.named)).dropWhile (fun c => c.extra) = rs
  rcases rs with _ | ⟨c, _ | ⟨d, ds⟩⟩
  · rfl
  · rfl
  · simp only [List.map_cons, Ends.mend_kind, mend_closeRows]

mutual
theorem mend_regulars : ∀ n : Node, regulars (mend n) = regulars n
  | .mk id kind named extra err field sr er sb eb text children => by
    rw [mend, regulars, regulars, mends_eq, mend_regular, mend_regularss children]
theorem mend_regularss : ∀ ns : List Node, regularss (ns.map mend) = regularss ns
  | [] => rfl
  | n :: ns => by rw [List.map_cons, regularss, regularss, mend_regulars n, mend_regularss ns]
end

/-- All extra nodes below the root are comments. -/
theorem notes_all {cm : CMap} {n : Node} (h : All (KidsB cm) n) (hn : n.extra = true → Notes.Note n) :
    All (fun x => x.extra = true → Notes.Note x) n := by
  induction h with
  | mk h hk ih => exact .mk hn (fun c hc => ih c hc (fun hx => Notes.kid_note h hc hx))

theorem note_ink {n : Node} (h : Notes.Note n) : ink n.text ≠ [] := by
  unfold Notes.Note isNote at h
  simp only [Bool.and_eq_true, Bool.or_eq_true] at h
  have hp : ∀ {d : Char}, ['/', d].isPrefixOf n.text = true → ink n.text ≠ [] := by
    intro d hp
    obtain ⟨r, e⟩ := List.isPrefixOf_iff_prefix.1 hp
    rw [← e, ink, List.cons_append, List.filter_cons_of_pos (by decide)]
    exact List.cons_ne_nil _ _
  rcases h.2 with h | h
  · exact hp h.1.1.2
  · exact hp h.1.1.1.2

theorem note_else {n : Node} (h : Notes.Note n) : n.kind ≠ "else" := by
  intro hk
  unfold Notes.Note isNote at h
  rw [hk] at h
  simp at h

theorem tight_front {s : Str} (h : Trail.Tight s) : ∃ c r, s = c :: r ∧ isBlank c = false := by
  unfold Trail.Tight at h
  obtain ⟨h3, h4, -, -, h5⟩ := h
  cases s with
  | nil => exact absurd rfl h3
  | cons c r => exact ⟨c, r, rfl, by simpa [isBlank, Trail.front, Trail.lead] using And.intro (h5 rfl) h4⟩

/-! ### The formatted text -/

/-- The columns of the formatted text of a mended tree. -/
theorem mend_columns {checks : Bool} {depth : Nat} {cfg : Config} {root : Node} {out : Str} (hcl : root.Closed) (hi : root.ids.Nodup)
    (hc : conforms root = true) (hall : All (@Fact Trail.Gate.edges) root) (hca : All Called root) (hr : regulars root = true)
    (hne : root.children ≠ []) (h : formatTree checks depth cfg root = .ok out) :
    agree (columns (some 0) out) (wanted none (nested cfg.indentSize 0 root)) = true := by
  obtain ⟨cm, p, is, log, d, hcm, hn, -, hb, -, hout, -⟩ := run_conts (Notes.parsed_ids hcl hi) hc h
  obtain ⟨hkd, hnm, hex, hcf⟩ := conforms_root hc
  have hsett := hall.imp (fun _ h => h.both.2)
  have F : Found cm root := Notes.found_of hsett hex (by unfold isVisited; rw [hnm, hex]; rfl) hcl hi hcm
  have hfine : ∀ c ∈ cm.all, Ends.Fine c := by
    intro c hc
    have := ((C14_every_comment_attached_once root hcl hnm hex).2 cm hcm).mem_iff.1 hc
    obtain ⟨o, ho, rfl⟩ := List.mem_map.1 this
    exact Ends.fine_of (Ends.extras_of root (Ends.clean_kids hall) o ho)
  have H := Notes.home_of F
  have L := Ends.lone_of F hfine hca
  have T := Ends.fit_of hall hex
  have hro := roles_of F.nodup F.ok
  have g := good_of (Notes.parsed_ids hcl hi) hc hcm
  have hB : Body (Loc.ofRoot root) := by
    intro hk
    have : root.kind = "local_variable_declaration" := hk
    rw [hkd] at this
    exact absurd this (by decide)
  have hcalls : ∀ (fuel : Nat) {c : Cls} {x : Loc} {p : Prog}, Reach root x → plainCls c = true → conf x.node (.cls c) = true → Body x →
      Prog.new ⟨cm, checks⟩ fuel c x = .ok p → @Ends.Does _ (fairOf F hfine) c x p := by
    intro fuel c x p hr' hp' h' hb' hn'
    letI K := fairOf F hfine
    have hcall := Ends.call_t (cm := cm) (cfg := { cm, checks := false }) g rfl rfl T H L (max fuel (8 * Gram.depth x.node + rank c + 1))
      (Call.node (c := c) (l := x) hr' hp' h' hb') (by omega)
    exact P_get hcall (new_below (cfg := { cm, checks }) (cfg' := { cm, checks := false }) ⟨rfl, fun h => nomatch h⟩
      (Nat.le_max_left fuel (8 * Gram.depth x.node + rank c + 1)) c x p hn')
  have hst : ∀ (fuel : Nat) {c : Cls} {x : Loc}, Reach root x → starter c = true → conf x.node (.cls c) = true → Body x →
      W Any (Prog.new ⟨cm, checks⟩ fuel c x) (Fresh (roleOf cm) cm cfg.indentSize x) := by
    intro fuel c x hr' hc' h' hb'
    cases hp : Prog.new ⟨cm, checks⟩ fuel c x with
    | error e => trivial
    | ok p =>
      refine fresh_of hro F.ok ?_
      letI K := fairOf F hfine
      have hk := Ends.does_of (by cases c <;> first | rfl | cases hc') (hcalls fuel hr' (by cases c <;> first | rfl | cases hc') h' hb' hp)
      unfold Ends.Kid Ends.T at hk
      have hk : runE .L (Notes.symss (roleOf cm) cm [p]) ≤ Ends.up (Ends.endOf c) (Ends.pst x.id) := hk
      rw [Notes.symss, Notes.symss, List.append_nil] at hk
      intro hbad
      rw [hbad] at hk
      have he : Ends.endOf c = .N := by cases c <;> first | rfl | cases hc'
      rw [he, Ends.up_N] at hk
      unfold Ends.pst at hk
      revert hk
      split <;> decide
  have hroot : runE .N (Notes.syms (roleOf cm) cm p) ≠ .bad := by
    letI K := fairOf F hfine
    have hf := hcalls depth .root rfl hcf hB hn
    replace hf : Ends.T .N [p] .B := hf
    unfold Ends.T at hf
    rw [Notes.symss, Notes.symss, List.append_nil] at hf
    intro hbad
    have hf : runE .N (Notes.syms (roleOf cm) cm p) ≤ .B := hf
    rw [hbad] at hf
    exact absurd hf (by decide)
  have hfit : All (Fit cm) root := by
    refine (all_and (all_and F.kids (regulars_all _ hr)) (all_and (notes_all F.kids (fun h => by rw [hex] at h; cases h)) hall)).imp
      (fun n hn => ?_)
    have hf : n.extra = false → ∃ c r, n.text = c :: r ∧ isBlank c = false := fun hx => tight_front (hn.2.2.text hx)
    cases hx : n.extra with
    | true =>
      have hnote := hn.2.1 hx
      exact ⟨hn.1.1, hn.1.2, .inr (note_ink hnote), fun hel => absurd hel (note_else hnote)⟩
    | false =>
      refine ⟨hn.1.1, hn.1.2, .inr ?_, fun _ => hf hx⟩
      obtain ⟨c, r, e, hc⟩ := hf hx
      rw [e, ink, List.filter_cons_of_pos (by rw [hc]; rfl)]
      exact List.cons_ne_nil _ _
  have hown := fun {x : Loc} (h : Reach root x) => own_of g F.kids F.root h
  have hlv := @new_lv _ _ cm ⟨cm, checks⟩ cfg.indentSize g rfl hro hown hst
  cases depth with
  | zero => cases hn
  | succ fuel =>
    rw [Prog.new] at hn
    have hrt := root_lv (cfg := ⟨cm, checks⟩) (rec := Prog.new ⟨cm, checks⟩ fuel) (ro := roleOf cm) (k := cfg.indentSize) (l := .ofRoot root)
      (m := 8 * Gram.depth (Loc.ofRoot root).node + rank .root) ⟨⟨g, rfl, fun _ => trivial, .root,
      fun hc _ => W_bad (call_sx g rfl fuel hc) (fun _ _ => trivial), by omega⟩, hro, hown, hfit,
      fun hr' hp' h' hb' hf' => hlv fuel hr' hp' h' hb' hf', fun hr' hc' h' hb' => hst fuel hr' hc' h' hb',
      fun hf' hk' hb' => val_fresh fuel hf' hk' hb'⟩ hcf hne
    have hn : New.root ⟨cm, checks⟩ (Prog.new ⟨cm, checks⟩ fuel) (.ofRoot root) = .ok p := hn
    rw [hn] at hrt
    have hrt : Sim (.line 0 :: ev (roleOf cm) cm cfg.indentSize 0 p) (nested cfg.indentSize 0 root) := hrt
    have hm := hrt.1 none
    have hl := layout_columns hro hb (no_break hroot) cfg.maxWidth
    have hm' : Meets (wanted (some 0) (ev (roleOf cm) cm cfg.indentSize 0 p)) (wanted none (nested cfg.indentSize 0 root)) := hm
    rw [hout]
    exact meets_agree (hl.trans hm')

/-- The columns of the formatted text of a tree with members. -/
theorem format_columns {checks : Bool} {depth : Nat} {cfg : Config} {root : Node} {out : Str} (hcl : root.Closed)
    (hi : root.ids.Nodup) (hf : root.field = none) (hc : conforms root = true) (hs : settled root = true)
    (ht : prims "parser_output" none root.children = true) (hu : updates root = true) (hca : calls root = true)
    (hr : regulars root = true) (hne : root.children ≠ []) (h : formatTree checks depth cfg root = .ok out) :
    agree (columns (some 0) out) (wanted none (nested cfg.indentSize 0 root)) = true := by
  obtain ⟨hk, hnm, hex, hcf⟩ := conforms_root hc
  have hc1 := retext_conforms ['x'] hc hne
  obtain ⟨hk1, hnm1, hex1, hcf1⟩ := conforms_root hc1
  have hi1 : (retext ['x'] root).ids.Nodup := by rw [retext_ids]; exact hi
  have hs1 : settled (retext ['x'] root) = true := by cases root; simpa [retext, settled] using hs
  have hca1 : calls (retext ['x'] root) = true := by cases root; simpa [retext, calls] using hca
  have hpr : prim "" none (retext ['x'] root) = true := by
    cases root with
    | mk id kind named extra err field sr er sb eb text children =>
      simp only at hk hf hex ht
      subst hk hf hex
      rw [retext, prim, primBy, Bool.and_eq_true, Bool.and_eq_true]
      refine ⟨⟨(Trail.tight_iff _).2 (Trail.Tight_const (by decide +kernel)), ?_⟩, ht⟩
      rw [if_neg (by decide), (Trail.tight_iff _).2 (Trail.Tight_const (s := ['x']) (by decide)), Bool.or_true]
  have hup : All (fun x => x.kind = "for_statement" → ∃ c ∈ x.children, c.field = some "update") (retext ['x'] root) := by
    refine .mk (fun h => ?_) (fun c hc => (Trail.updates_all root hu).kid (by rwa [retext_children] at hc))
    rw [hk1] at h; exact absurd h (by decide)
  have hall := Ends.mend_facts hpr hcf1 hs1 hup
  have hsk : skeleton checks (mend (retext ['x'] root)) = skeleton checks (retext ['x'] root) := by
    have := Ends.mend_skel checks "" none false [] [] _ hpr
    rwa [List.map_nil] at this
  have hc2 : conforms (mend (retext ['x'] root)) = true := by
    rw [conforms, Ends.mend_named, hnm1, Bool.true_and]
    exact Ends.mend_conf _ _ _ _ hpr hcf1
  have hi2 : (mend (retext ['x'] root)).ids.Nodup := by rw [Ends.mend_ids]; exact hi1
  have h1 := (C50_only_the_skeleton_matters _ _ checks (retext_skel ['x'] hk hex hf) hi1 hi depth cfg out).2 h
  have h2 := (C50_only_the_skeleton_matters _ _ checks hsk hi2 hi1 depth cfg out).2 h1
  have := mend_columns (Ends.mend_closed _ (retext_closed _ hcl)) hi2 hc2 hall (Ends.All.mend (fun n hn => hn.mend) (Ends.calls_all _ hca1))
    (by rw [mend_regulars]; exact retext_regulars _ hr) (by rw [Ends.mend_children, retext_children]; simpa using hne) h2
  rwa [mend_nested _ _ _ _ _ hpr, retext_nested _ _ _ hex hne] at this

end Afmt.Levels
