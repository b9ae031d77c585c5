import Verif.Ast.Knot
import Verif.Gap.Tac

/-!
# Blanks in the programs of the constructors: by hand
-/

set_option linter.unusedVariables false
set_option linter.unusedSimpArgs false

namespace Afmt.Gap
open Afmt.Prog
open Afmt.Lines (P P_bind P_ok P_pure P_err P_any P_mono P_get P_of P_guard InL InO InL_vec InL_named InL_try InL_filter InL_drop InL_tail InL_head InL_last InO_K InO_N InO_first mapR_ne fullKinds callable)
set_option maxRecDepth 4000
variable [Mode] {root : Node} {rec : Rec} {n : Loc} {cfg : Cfg}

theorem root_t (E : Env root rec) (hn : In root n) : P (New.root cfg rec n) (fun p => T .L [p] .code) := by
  unfold New.root
  refine P_bind (Env.check E) (fun _ _ _ => ?_)
  refine P_bind (Env.members E (InL_vec hn) (by decide)) (fun ms _ hm => ?_)
  refine P_ok (T_ifDangling (T_concat ?_))
  exact T_interBody hm (by decide) (T_nl (by decide) (T_nil (by decide)))

theorem modifiers_t (E : Env root rec) (hn : In root n) : P (New.modifiers rec n) (Kid .X) := by
  unfold New.modifiers
  refine P_bind (Env.check E) (fun _ _ hk => ?_)
  refine P_bind (Env.mapP E (InL_try hn) rfl (by wo)) (fun as has ha => ?_)
  refine P_bind (Env.mapP E (InL_try hn) rfl (by wo)) (fun ms hms hm => ?_)
  refine P_ok (Kid_of (T_bwc ?_))
  rw [List.append_nil]
  refine T_kidsB ha (by decide) ?_
  split
  · exact T_nil (by decide)
  · rename_i he
    exact T_interNe hm (fun h => he (by rw [h]; rfl)) (by decide) (by decide) (T_tB (by decide) (T_nil (by decide)))

theorem annotation_t (E : Env root rec) (hn : In root n) : P (New.annotation rec n) (Kid .W) := by
  unfold New.annotation
  refine P_bind (Env.check E) (fun _ _ hk => ?_)
  have h : P (optR (n.tryCByN "arguments") (rec .annotationArgumentList)) (fun o => Seg (opt o)) := by
    unfold optR
    split
    · exact P_ok (Seg_of (T_nil (by decide)))
    · rename_i l hl
      have h2 := E.args l (in_tryCByN hn hl)
      generalize hr : rec .annotationArgumentList l = r at h2
      cases r with
      | error e => exact P_err
      | ok p => exact P_ok (Seg_of (P_get (Q := fun p => T .E [p] .E) h2 rfl))
  refine P_bind h (fun o _ ho => ?_)
  refine P_bind (Env.cByNw E hn (by decide)) (fun _ _ hc => ?_)
  refine P_bind (Env.recP E _ _ hc.1 rfl (fun _ => hc.2)) (fun _ _ hv => ?_)
  refine P_ok (Kid_of (T_concat (T_bwcpN (T_tN (by decide) (T_kid hv (by decide) (T_segL ho (by decide) (by decide)))) ?_)))
  exact T_nl (by decide) (T_nil (by decide))

theorem annotationArgumentList_t (E : Env root rec) (hn : In root n) : P (New.annotationArgumentList rec n) (fun p => T .E [p] .E) := by
  have key : ∀ {r : R Prog}, P r (Kid .E) → P r (fun p => T .E [p] .E) := fun h => P_mono h (fun _ h => T_kid h (by decide) (T_nil (by decide)))
  unfold New.annotationArgumentList
  split
  · exact P_ok (T_concat (T_nil (by decide)))
  · split
    all_goals refine key ?_; wt E hn

theorem methodInvocation_t (E : Env root rec) (hn : In root n) : P (New.methodInvocation rec n) (Kid .E) := by
  unfold New.methodInvocation New.propertyNavigation
  wt E hn

theorem loopBody_t (E : Env root rec) (hn : In root n) : P (New.loopBody rec n) Seg := by
  unfold New.loopBody
  refine P_bind (E.stmt n hn) (fun b _ hb => ?_)
  refine P_ok (Seg_of ?_)
  split
  · exact T_semi (by decide) (T_nil (by decide))
  · rename_i hk
    exact T_tB (by decide) (T_kid (hb.2 hk) (by decide) (T_nil (by decide)))

omit [Mode] in
theorem semis_text : ∀ {cs : List Loc} {ss : List Punc}, (∀ c ∈ cs, c.kind = ";") → mapR Punc.new cs = .ok ss → ∀ s ∈ ss, s.text = [';']
  | [], ss, _, h, s, hs => by cases h; cases hs
  | c :: cs, ss, hc, h, s, hs => by
    rw [mapR] at h
    split at h
    · cases h
    · rename_i b hb
      split at h
      · cases h
      · rename_i bs hbs
        cases h
        rcases List.mem_cons.1 hs with rfl | hs
        · have hk := hc c (by simp)
          simp [Punc.new, hk] at hb
          rw [← hb]; rfl
        · exact semis_text (fun d hd => hc d (by simp [hd])) hbs s hs

theorem forStatement_t (E : Env root rec) (hn : In root n) : P (New.forStatement rec n) (Kid .E) := by
  unfold New.forStatement
  refine P_bind (Env.check E) (fun _ _ hk => ?_)
  have hupd := E.upd n hn hk
  refine P_bind (Env.optP E (InO_N hn) rfl (by wo)) (fun i _ hi => ?_)
  refine P_bind (Env.optP E (InO_N hn) rfl (by wo)) (fun c _ hc => ?_)
  refine P_bind (Env.optP E (InO_N hn) rfl (by wo)) (fun u hu' hu => ?_)
  refine P_bind (Q := fun ss => ∀ s ∈ ss, s.text = [';']) (P_of fun ss hss => semis_text (fun c hc => by simpa using (List.mem_filter.1 hc).2) hss) (fun semis _ hsemi => ?_)
  refine P_bind (Env.cByN E hn) (fun b _ hb => ?_)
  refine P_bind (loopBody_t E hb) (fun b _ hb => ?_)
  have hu1 : ∃ p, u = some p := by
    cases h : n.tryCByN "update" with
    | none => exact absurd h hupd
    | some x =>
      rw [h] at hu'
      simp only [optR] at hu'
      split at hu'
      · exact ⟨_, (Except.ok.inj hu').symm⟩
      · cases hu'
  obtain ⟨u, rfl⟩ := hu1
  refine P_bind (Q := fun ps => ∃ p q, ps = [p, q, .concat [t " ", u]] ∧ T (St.O.or .L) [p] .E ∧ T (St.E.or .L) [q] .E) ?_ (fun ps _ hps => ?_)
  · simp only [endOf] at hi hc
    have hk : ∀ {p}, Kid .E p → T (St.O.or .L) [p] .E := fun h => T_kid h (by decide) (T_nil (by decide))
    have hp : ∀ s, s ∈ semis → T (St.O.or .L) [.punct s] .E := fun s hs => T_punctS (hsemi s hs) (by decide) (T_nil (by decide))
    have hs : ∀ {p}, Kid .E p → T (St.E.or .L) [.concat [t " ", p]] .E := fun h =>
      T_concat (T_tB (by decide) (T_kid h (by decide) (T_nil (by decide))))
    have hq : ∀ s, s ∈ semis → T (St.E.or .L) [.punct s] .E := fun s hs => T_punctS (hsemi s hs) (by decide) (T_nil (by decide))
    split
    · exact P_ok ⟨_, _, rfl, hk (OptK_get hi), hs (OptK_get hc)⟩
    · exact P_ok ⟨_, _, rfl, hk (OptK_get hi), hq _ (by simp)⟩
    · exact P_ok ⟨_, _, rfl, hp _ (by simp), hs (OptK_get hc)⟩
    · exact P_ok ⟨_, _, rfl, hp _ (by simp), hq _ (by simp)⟩
    · exact P_err
  · obtain ⟨p, q, rfl, h1, h2⟩ := hps
    refine P_ok (Kid_of (T_bwcpN (T_tB (by decide) (T_group ?_)) (T_nil (by decide))))
    show T .W (.concat [t "(", .indent .maybeline, .indent (.concat [p, .maybeline, q, .maybeline, .concat [t " ", u]]), .maybeline, t ")"] :: b) .E
    refine T_concat (T_tO (by decide) (T_indent (T_maybe (by decide) (T_indent (T_concat ?_)))))
    refine T_cons h1 (T_maybe (by decide) (T_cons h2 (T_maybe (by decide) (T_concat (T_tB (by decide) ?_)))))
    exact T_kid (OptK_get hu) (by decide) (T_maybe (by decide) (T_tN (by decide) (T_segL hb (by decide) (by decide))))

theorem enhancedForStatement_t (E : Env root rec) (hn : In root n) : P (New.enhancedForStatement rec n) (Kid .E) := by
  unfold New.enhancedForStatement
  refine P_bind (Env.check E) (fun _ _ hk => ?_)
  refine P_bind (Env.cByN E hn) (fun a _ ha => ?_)
  refine P_bind (Env.recP E _ _ ha rfl (by wo)) (fun a _ ha => ?_)
  refine P_bind (Env.cByNw E hn (by decide)) (fun m _ hm => ?_)
  refine P_bind (Env.recP E _ _ hm.1 rfl (fun _ => hm.2)) (fun m _ hm => ?_)
  refine P_bind (Env.cByN E hn) (fun v _ hv => ?_)
  refine P_bind (Env.recP E _ _ hv rfl (by wo)) (fun v _ hv => ?_)
  refine P_bind (Env.cByN E hn) (fun b _ hb => ?_)
  refine P_bind (loopBody_t E hb) (fun b _ hb => ?_)
  wt E hn

theorem constructorBody_t (E : Env root rec) (hn : In root n) : P (New.constructorBody cfg rec n) (Kid .E) := by
  unfold New.constructorBody
  refine P_bind (Q := fun x => (∀ m, x.1 = some m → Kid .E m.2) ∧ Mems .E x.2) ?_ (fun x _ hx => ?_)
  · have hv := InL_vec hn
    split
    · exact P_ok ⟨nofun, Mems_nil⟩
    · rename_i c cs hcs
      rw [hcs] at hv
      split
      · refine P_bind (Env.member E (InL_head hv) (by decide)) (fun m _ hm => ?_)
        refine P_bind (Env.stmts E hn (fun x hx => by rw [hcs]; exact .tail _ hx)) (fun ms _ hms => ?_)
        exact P_ok ⟨fun _ h => by cases h; exact hm, hms⟩
      · refine P_bind (Env.stmts E hn (fun x hx => by rw [hcs]; exact hx)) (fun ms _ hms => ?_)
        exact P_ok ⟨nofun, hms⟩
  · obtain ⟨inv, ss⟩ := x
    obtain ⟨h1, h2⟩ := hx
    refine P_ok (Kid_of (T_concat (T_pre (T_ifDangling (T_concat ?_)))))
    refine (congrArg (T .X · .E) (List.append_nil _)).mpr ?_
    have tail : ∀ {ms : List (Bool × Prog)}, Mems .E ms → ms ≠ [] → T .X [.indent (intersperseBody ms), .nl, t "}"] .E := by
      intro ms hm hne
      exact T_indent (T_interBodyNe hm hne (by decide) (T_nl (by decide) (T_tN (by decide) (T_nil (by decide)))))
    dsimp only at h1 h2
    cases inv with
    | none =>
      cases ss with
      | nil => exact T_concat (T_tN (by decide) (T_nl (by decide) (T_tN (by decide) (T_nil (by decide)))))
      | cons m ms => exact T_tN (by decide) (T_indent (T_nl (by decide) (T_start (by decide) (tail h2 (by simp)))))
    | some m =>
      obtain ⟨tr, c⟩ := m
      have h1 := h1 _ rfl
      cases ss with
      | nil =>
        refine T_tN (by decide) (T_indent (T_concat (T_nl (by decide) (T_kid h1 (by decide) ?_))))
        exact T_indent (T_interBody h2 (by decide) (T_nl (by decide) (T_tN (by decide) (T_nil (by decide)))))
      | cons m ms =>
        refine T_tN (by decide) (T_indent (T_concat (T_nl (by decide) (T_kid h1 (by decide) ?_))))
        cases tr
        · exact T_indent (T_sep (by decide) (T_start (by decide) (tail h2 (by simp))))
        · exact T_sep (by decide) (T_start (by decide) (tail h2 (by simp)))

theorem constructInvocation_t (E : Env root rec) (hn : In root n) : P (New.constructInvocation rec n) (Kid .E) := by
  unfold New.constructInvocation
  refine P_bind (Env.optP E (InO_N hn) rfl (by wo)) (fun i _ hi => ?_)
  refine P_bind (Env.optP E (InO_K hn) rfl (by wo)) (fun c _ hc => ?_)
  refine P_bind (P_opt (e := .E) (fun x _ => ?_)) (fun o _ ho => ?_)
  · split
    · exact P_ok (Kid_of (T_tN (by decide) (T_nil (by decide))))
    · split
      · exact P_ok (Kid_of (T_tN (by decide) (T_nil (by decide))))
      · exact P_err
  wt E hn

theorem typeParameter_t (E : Env root rec) (hn : In root n) : P (New.typeParameter rec n) (Kid .E) := by
  unfold New.typeParameter
  wt E hn

theorem fieldAccess_t (E : Env root rec) (hn : In root n) : P (New.fieldAccess rec n) (Kid .E) := by
  unfold New.fieldAccess New.fieldNavigation
  wt E hn

theorem tryStatement_t (E : Env root rec) (hn : In root n) : P (New.tryStatement rec n) (Kid .E) := by
  unfold New.tryStatement
  refine P_bind (Env.check E) (fun _ _ _ => ?_)
  refine P_bind (Q := Seg) ?_ (fun i _ hi => ?_)
  · split
    · rename_i f hf
      refine P_bind (Env.mapLed E (InL_try hn) rfl) (fun cs _ hc => ?_)
      refine P_bind (Env.ledP E _ _ (in_tryCByK hn hf) rfl) (fun g _ hg => ?_)
      exact P_ok (Seg_of (T_concat (T_leds hc (by decide) (T_led hg (by decide) (T_nil (by decide))))))
    · refine P_bind (Env.csByK E hn) (fun ls _ hl => ?_)
      refine P_bind (Env.mapLed E hl.1 rfl) (fun cs _ hc => ?_)
      exact P_ok (Seg_of (T_concat (T_leds hc (by decide) (T_nil (by decide)))))
  · refine P_bind (Env.cByN E hn) (fun b _ hb => ?_)
    refine P_bind (Env.recP E _ _ hb rfl (by wo)) (fun b _ hb => ?_)
    refine P_ok (Kid_of (T_bwcpN (T_tR (by decide) (T_kid hb (by decide) (T_concat ?_))) (T_nil (by decide))))
    exact T_seg hi (by decide) (T_nil (by decide))

theorem breakStatement_t (E : Env root rec) (hn : In root n) : P (New.breakStatement rec n) (Kid .E) := by
  unfold New.breakStatement New.jump
  wt E hn

theorem continueStatement_t (E : Env root rec) (hn : In root n) : P (New.continueStatement rec n) (Kid .E) := by
  unfold New.continueStatement New.jump
  wt E hn

theorem whenSObjectType_t (E : Env root rec) (hn : In root n) : P (New.whenSObjectType rec n) (Kid .E) := by
  unfold New.whenSObjectType
  refine P_bind (Env.mapP E (InL_filter (InL_vec hn)) rfl (by wo)) (fun cs _ hc => ?_)
  split
  · rename_i ty i h1 h2
    have hi := E.wordEq (InL_last (InL_filter (InL_vec hn)) h2) (k := "identifier") (by simpa using (List.mem_filter.1 (List.mem_of_getLast? h2)).2) (by decide)
    have ht := Kid_last hc h1
    exact P_ok (Kid_of (T_bwcpN (T_kid ht (by decide) (T_tB (by decide) (T_val hi (by decide) (T_nil (by decide))))) (T_nil (by decide))))
  · exact P_err

theorem versionExpression_t (E : Env root rec) (hn : In root n) : P (New.versionExpression rec n) (Kid .E) := by
  unfold New.versionExpression
  refine P_bind (Env.check E) (fun _ _ _ => ?_)
  refine P_bind (Env.optP E (InO_N hn) rfl (by wo)) (fun o _ ho => ?_)
  refine P_ok (Kid_of (T_bwcpN (T_tN (by decide) ?_) (T_nil (by decide))))
  cases o with
  | none => exact T_tN (by decide) (T_nil (by decide))
  | some p => exact T_kid (OptK_get ho) (by decide) (T_nil (by decide))

theorem sObjectReturn_t (E : Env root rec) (hn : In root n) : P (New.sObjectReturn rec n) (Kid .E) := by
  unfold New.sObjectReturn
  refine P_bind (Env.check E) (fun _ _ _ => ?_)
  refine P_bind (Q := Seg) ?_ (fun i _ hi => ?_)
  · split
    · exact P_ok (Seg_of (T_nil (by decide)))
    · rename_i s hs
      have hk := kind_tryCByK hs
      have hi := in_tryCByK hn hs
      refine P_bind (Env.mapP E (InL_vec hi) rfl (by wo)) (fun fs hfs hf => ?_)
      have hne := mapR_ne hfs (E.full s hi (by rw [hk]; decide))
      have hl : Kid .E (Prog.intersperse fs (.after .softline)) := Kid_of (T_interNe hf hne (by decide) (by decide) (T_nil (by decide)))
      wt E hn
  · wt E hn

theorem mapKeyInitializer_t (E : Env root rec) (hn : In root n) : P (New.mapKeyInitializer rec n) (Kid .E) := by
  unfold New.mapKeyInitializer
  refine P_bind (Env.check E) (fun _ _ _ => ?_)
  have hv := InL_vec hn
  split
  · rename_i a b hab
    rw [hab] at hv
    have ha := InL_head hv
    have hb := InL_head (InL_tail hv)
    wt E hn
  · exact P_err

theorem groupByClause_t (E : Env root rec) (hn : In root n) : P (New.groupByClause rec n) (Kid .E) := by
  unfold New.groupByClause
  refine P_bind (Env.check E) (fun _ _ hk => ?_)
  split
  · refine P_bind (Env.dispatchs E (e := .E) (InL_filter (InL_vec hn)) (by decide)) (fun es hes he => ?_)
    refine P_bind (Env.mapP E (InL_filter (InL_vec hn)) rfl (by wo)) (fun hs _ hh => ?_)
    refine P_ok (Kid_of (T_bwcpN (T_tR (by decide) (T_interMap hes (E.grp n hn hk) he (by decide) (by decide) ?_)) (T_nil (by decide))))
    split
    · rename_i h hl
      exact T_soft (by decide) (T_kid (Kid_last hh hl) (by decide) (T_nil (by decide)))
    · exact T_nil (by decide)
  · exact P_err

theorem variableDeclarator_t (E : Env root rec) (hn : In root n) : P (New.variableDeclarator rec n) (Kid .E) := by
  unfold New.variableDeclarator
  refine P_bind (Env.check E) (fun _ _ hk => ?_)
  refine P_bind (Q := fun o => ∀ p, o = some p → Infix p) (P_of fun o ho p hp => ?_) (fun op hop ho => ?_)
  · subst hp
    cases hx : n.tryCByK "assignment_operator" with
    | none => rw [hx] at ho; cases ho
    | some x =>
      rw [hx] at ho
      simp only [optR] at ho
      split at ho
      · rename_i b hb
        cases ho
        have h1 := E.oper x (in_tryCByK hn hx) (by rw [kind_tryCByK hx]; decide)
        exact P_get (E.sign x (in_tryCByK hn hx) h1.1 h1.2) hb
      · cases ho
  refine P_bind (Env.cByNw E hn (by decide)) (fun m _ hm => ?_)
  refine P_bind (Env.recP E _ _ hm.1 rfl (fun _ => hm.2)) (fun m _ hm => ?_)
  split
  · exact P_ok (Kid_of (T_bwcpN (T_concat (T_kid hm (by decide) (T_nil (by decide)))) (T_nil (by decide))))
  · rename_i v hv
    have h1 := E.asg n hn hk (by rw [hv]; simp)
    have h2 : ∃ p, op = some p := by
      cases h : n.tryCByK "assignment_operator" with
      | none => exact absurd h h1
      | some x =>
        rw [h] at hop
        simp only [optR] at hop
        split at hop
        · exact ⟨_, (Except.ok.inj hop).symm⟩
        · cases hop
    obtain ⟨p, rfl⟩ := h2
    have hp : Infix p := ho p rfl
    refine P_bind (Env.recP E _ _ (in_tryCByN hn hv) rfl (by wo)) (fun x _ hx => ?_)
    refine P_ok (Kid_of (T_bwcpN ?_ (T_nil (by decide))))
    split
    · exact T_concat (T_kid hm (by decide) (T_tB (by decide) (T_infix hp (T_tB (by decide) (T_kid hx (by decide) (T_nil (by decide)))))))
    · exact T_group (T_indent (T_concat (T_kid hm (by decide) (T_tB (by decide) (T_infix hp
        (T_soft (by decide) (T_kid hx (by decide) (T_nil (by decide)))))))))

theorem usingLookupClause_t (E : Env root rec) (hn : In root n) : P (New.usingLookupClause rec n) (Kid .E) := by
  unfold New.usingLookupClause
  exact P_bind (Env.check E) (fun _ _ hk => absurd hk (E.look n hn).1)

theorem usingLookupBindClause_t (E : Env root rec) (hn : In root n) : P (New.usingLookupBindClause rec n) (Kid .E) := by
  unfold New.usingLookupBindClause
  exact P_bind (Env.check E) (fun _ _ hk => absurd hk (E.look n hn).2)

theorem withDataCatFilter_t (E : Env root rec) (hn : In root n) : P (New.withDataCatFilter rec n) (Kid .E) := by
  unfold New.withDataCatFilter
  refine P_bind (Env.check E) (fun _ _ _ => ?_)
  refine P_bind (Env.csByKw E hn (by decide)) (fun ls _ hl => ?_)
  obtain ⟨⟨hl, _⟩, hw⟩ := hl
  split
  · have h1 := InL_head hl
    have h2 := InL_tail hl
    refine P_bind (Env.recP E _ _ h1 rfl (fun _ => hw.head)) (fun a _ ha => ?_)
    refine P_bind (Env.mapP E h2 rfl (fun _ => hw.tail)) (fun ds _ hd => ?_)
    refine P_bind (Env.cByKw E hn (by decide)) (fun b _ hb => ?_)
    refine P_bind (Env.recP E _ _ hb.1 rfl (fun _ => hb.2)) (fun b _ hb => ?_)
    refine P_ok (Kid_of (T_bwcpN (T_kid ha (by decide) (T_tB (by decide) (T_kid hb (by decide) (T_tB (by decide) ?_)))) (T_nil (by decide))))
    split
    · exact T_kid (Kids_head hd) (by decide) (T_nil (by decide))
    · exact T_paren hd (by decide) (T_nil (by decide))
  · exact P_err

theorem conditionExpression_t (E : Env root rec) (hn : In root n) {o : Option String} : P (New.conditionExpression rec o n) (Kid .E) := by
  unfold New.conditionExpression
  wt E hn

theorem andExpression_t (E : Env root rec) (hn : In root n) : P (New.andExpression rec n) (Kid .E) := by
  unfold New.andExpression
  refine P_bind (Env.check E) (fun _ _ _ => ?_)
  refine P_bind (P_map (e := .E) (fun x hx => conditionExpression_t E (in_vec hn hx))) (fun _ _ _ => ?_)
  wt E hn

theorem orExpression_t (E : Env root rec) (hn : In root n) : P (New.orExpression rec n) (Kid .E) := by
  unfold New.orExpression
  refine P_bind (Env.check E) (fun _ _ _ => ?_)
  refine P_bind (P_map (e := .E) (fun x hx => conditionExpression_t E (in_vec hn hx))) (fun _ _ _ => ?_)
  wt E hn

theorem notExpression_t (E : Env root rec) (hn : In root n) : P (New.notExpression rec n) (Kid .E) := by
  unfold New.notExpression
  refine P_bind (Env.check E) (fun _ _ _ => ?_)
  refine P_bind (Env.firstC E hn) (fun c _ hc => ?_)
  refine P_bind (conditionExpression_t E hc) (fun _ _ _ => ?_)
  wt E hn

theorem geoLocationTypeVariant_t (E : Env root rec) (hn : In root n) : P (New.geoLocationTypeVariant rec n) (Kid .E) := by
  unfold New.geoLocationTypeVariant
  refine P_bind (Env.firstC E hn) (fun c _ hc => ?_)
  split
  · wt E hn
  split
  · wt E hn
  split
  · rename_i hk
    have hw := E.wordEq hc hk (by decide)
    refine P_bind (Env.csByKw E hn (by decide)) (fun ls _ hl => ?_)
    obtain ⟨⟨hl, _⟩, hws⟩ := hl
    split
    · have h1 := InL_head hl
      have h2 := InL_head (InL_tail hl)
      have h3 := hws.head
      have h4 := hws.tail.head
      wt E hn
    · exact P_err
  · exact P_err

theorem ifStatement_t (E : Env root rec) (hn : In root n) : P (New.ifStatement rec n) (Kid .E) := by
  unfold New.ifStatement
  refine P_bind (Env.check E) (fun _ _ _ => ?_)
  refine P_bind (Env.cByN E hn) (fun c _ hc => ?_)
  refine P_bind (Env.recP E _ _ hc rfl (by wo)) (fun c _ hc => ?_)
  refine P_bind (Env.cByN E hn) (fun d _ hd => ?_)
  refine P_bind (E.stmt d hd) (fun s _ hs => ?_)
  have first : ∀ {qs e}, T .E qs e → T .X (([t "if ", c] ++ (if d.kind = "block" then [t " ", s] else [.indent .nl, .indent s])) ++ qs) e := by
    intro qs e h
    refine T_tB (by decide) (T_kid hc (by decide) ?_)
    split
    · rename_i hk
      exact T_tB (by decide) (T_kid (hs.2 (by rw [hk]; decide)) (by decide) h)
    · exact T_indent (T_nl (by decide) (T_indent (T_cons hs.1 h)))
  dsimp only
  split
  · refine P_ok (Kid_of (T_bwcpN ?_ (T_nil (by decide))))
    have := first (T_nil (e := .E) (by decide))
    rwa [List.append_nil] at this
  · rename_i alt halt
    split
    · exact P_err
    · rename_i l hl
      have hlk : l.kind = "else" := by simpa using List.find?_some hl
      have hli : In root l := .child hn (List.mem_of_find?_eq_some hl)
      refine P_bind (Env.recP E _ _ hli rfl (fun _ => E.wordEq hli hlk (by decide))) (fun l _ hl => ?_)
      refine P_bind (E.stmt alt (in_tryCByN hn halt)) (fun r _ hr => ?_)
      refine P_ok (Kid_of (T_bwcpN ?_ (T_nil (by decide))))
      rw [List.append_assoc]
      refine first ?_
      split
      · rename_i hk
        exact T_tB (by decide) (T_kid hl (by decide) (T_tB (by decide) (T_kid (hr.2 (E.alt n alt hn halt)) (by decide) (T_nil (by decide)))))
      · refine T_nl (by decide) (T_kid hl (by decide) ?_)
        split
        · rename_i hk
          exact T_tB (by decide) (T_kid (hr.2 (by rcases hk with hk | hk <;> rw [hk] <;> decide)) (by decide) (T_nil (by decide)))
        · exact T_indent (T_nl (by decide) (T_cons hr.1 (T_nil (by decide))))

end Afmt.Gap
