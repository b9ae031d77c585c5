import Verif.Ast.Knot
import Verif.Trail.Tac

/-!
# Ends of lines in the programs of the constructors: by hand
-/

set_option linter.unusedVariables false
set_option linter.unusedSimpArgs false

namespace Afmt.Trail
open Afmt.Prog
open Afmt.Lines (syms symss symss_append P P_bind P_ok P_pure P_err P_any P_mono P_get P_of P_guard InL InO InL_vec InL_named InL_try InL_filter InL_drop InL_tail InL_head InL_last InO_K InO_N InO_first mapR_ne fullKinds callable)
set_option maxRecDepth 4000
variable [Gate] {root : Node} {rec : Rec} {n : Loc} {cfg : Cfg}

theorem root_t (E : Env root rec) (hn : In root n) : P (New.root cfg rec n) (fun p => T .N [p] .B) := by
  unfold New.root
  refine P_bind (Env.check E) (fun _ _ _ => ?_)
  refine P_bind (Env.members E (InL_vec hn) rfl) (fun ms _ hm => ?_)
  refine P_ok (T_ifDangling (T_concat ?_))
  exact T_interBody hm (by decide) (T_nl (by decide) (T_nil (by decide)))

theorem modifiers_t (E : Env root rec) (hn : In root n) : P (New.modifiers rec n) (Kid .L) := by
  unfold New.modifiers
  refine P_bind (Env.check E) (fun _ _ hk => ?_)
  refine P_bind (Env.mapP E (InL_try hn) rfl) (fun as has ha => ?_)
  refine P_bind (Env.mapP E (InL_try hn) rfl) (fun ms hms hm => ?_)
  refine P_ok (Kid_of (T_bwc ?_))
  rw [List.append_nil]
  have hb : Kids .B as := Kids_end ha (by decide)
  refine T_kidsB hb (by decide) ?_
  split
  · exact T_nil (by decide)
  · rename_i he
    exact T_interNe hm (fun h => he (by rw [h]; rfl)) (by decide) (by decide) (T_tB (by decide) (T_nil (by decide)))

theorem annotation_t (E : Env root rec) (hn : In root n) : P (New.annotation rec n) (Kid .M) := by
  unfold New.annotation
  refine P_bind (Env.check E) (fun _ _ hk => ?_)
  have h : P (optR (n.tryCByN "arguments") (rec .annotationArgumentList)) (fun o => Seg (opt o)) := by
    unfold optR
    split
    · exact P_ok (Seg_of (T_nil (by decide)))
    · rename_i l hl
      have h2 := E.args l (in_tryCByN hn hl)
      generalize hr : rec .annotationArgumentList l = r at h2
      cases r with
      | error e => exact P_err
      | ok p => exact P_ok (Seg_of (P_get (Q := fun p => T .N [p] .N) h2 rfl))
  refine P_bind h (fun o _ ho => ?_)
  refine P_bind (Env.cByN E hn) (fun _ _ hc => ?_)
  refine P_bind (Env.recP E _ _ hc rfl) (fun _ _ hv => ?_)
  refine P_ok (Kid_of (T_concat (T_bwcpN (T_tN (by decide) (T_kid hv (by decide) (T_segL ho (by decide) (by decide)))) ?_)))
  exact T_nlLast (by decide) (by decide)

theorem annotationArgumentList_t (E : Env root rec) (hn : In root n) : P (New.annotationArgumentList rec n) (fun p => T .N [p] .N) := by
  have key : ∀ {r : R Prog}, P r (Kid .N) → P r (fun p => T .N [p] .N) := fun h => P_mono h (fun _ h => T_kid h (by decide) (T_nil (by decide)))
  unfold New.annotationArgumentList
  split
  · exact P_ok (T_concat (T_nil (by decide)))
  · split
    all_goals refine key ?_; wt E hn

theorem methodInvocation_t (E : Env root rec) (hn : In root n) : P (New.methodInvocation rec n) (Kid .N) := by
  unfold New.methodInvocation New.propertyNavigation
  wt E hn

theorem loopBody_t (E : Env root rec) (hn : In root n) : P (New.loopBody rec n) Seg := by
  unfold New.loopBody
  wt E hn

theorem forStatement_t (E : Env root rec) (hn : In root n) : P (New.forStatement rec n) (Kid .N) := by
  unfold New.forStatement
  refine P_bind (Env.check E) (fun _ _ hk => ?_)
  have hupd := E.upd n hn hk
  refine P_bind (Env.optP E (InO_N hn) rfl) (fun i _ hi => ?_)
  refine P_bind (Env.optP E (InO_N hn) rfl) (fun c _ hc => ?_)
  refine P_bind (Env.optP E (InO_N hn) rfl) (fun u hu' hu => ?_)
  refine P_bind (Q := fun _ => True) P_any (fun semis _ _ => ?_)
  refine P_bind (Env.cByN E hn) (fun b _ hb => ?_)
  refine P_bind (loopBody_t E hb) (fun b _ hb => ?_)
  have hu1 : ∃ p, u = some p := by
    cases h : n.tryCByN "update" with
    | none => exact absurd h hupd
    | some x =>
      rw [h] at hu'
      simp only [optR] at hu'
      split at hu'
      · exact ⟨_, (Except.ok.inj hu').symm⟩
      · cases hu'
  obtain ⟨u, rfl⟩ := hu1
  refine P_bind (Q := fun ps => ∃ p q, ps = [p, q, .concat [t " ", u]] ∧ Kid .N p ∧ T .M [q] .N) ?_ (fun ps _ hps => ?_)
  · simp only [endOf] at hi hc
    have hp : ∀ s, Kid .N (.punct s) := fun s => Kid_of (T_punct (by decide) (T_nil (by decide)))
    have hs : ∀ {p}, Kid .N p → T .M [.concat [t " ", p]] .N := fun h =>
      T_concat (T_tB (by decide) (T_kid h (by decide) (T_nil (by decide))))
    have hq : ∀ s, T .M [.punct s] .N := fun s => T_punct (by decide) (T_nil (by decide))
    split
    · exact P_ok ⟨_, _, rfl, OptK_get hi, hs (OptK_get hc)⟩
    · exact P_ok ⟨_, _, rfl, OptK_get hi, hq _⟩
    · exact P_ok ⟨_, _, rfl, hp _, hs (OptK_get hc)⟩
    · exact P_ok ⟨_, _, rfl, hp _, hq _⟩
    · exact P_err
  · obtain ⟨p, q, rfl, h1, h2⟩ := hps
    refine P_ok (Kid_of (T_bwcpN (T_tB (by decide) (T_group (by decide) ?_)) (T_nil (by decide))))
    show T .B (.concat [t "(", .indent .maybeline, .indent (.concat [p, .maybeline, q, .maybeline, .concat [t " ", u]]), .maybeline, t ")"] :: b) .N
    refine T_concat (T_tN (by decide) (T_indent (T_maybe (by decide) (T_indent (T_concat ?_)))))
    refine T_kid h1 (by decide) (T_mayM (by decide) (T_cons h2 (T_mayM (by decide) (T_concat (T_tB (by decide) ?_)))))
    exact T_kid (OptK_get hu) (by decide) (T_maybe (by decide) (T_tN (by decide) (T_segL hb (by decide) (by decide))))

theorem enhancedForStatement_t (E : Env root rec) (hn : In root n) : P (New.enhancedForStatement rec n) (Kid .N) := by
  unfold New.enhancedForStatement New.loopBody
  wt E hn

theorem constructorBody_t (E : Env root rec) (hn : In root n) : P (New.constructorBody cfg rec n) (Kid .N) := by
  unfold New.constructorBody
  refine P_bind (Q := fun x => (∀ m, x.1 = some m → Kid .N m.2) ∧ Mems .N x.2) ?_ (fun x _ hx => ?_)
  · have hv := InL_vec hn
    split
    · exact P_ok ⟨nofun, Mems_nil⟩
    · rename_i c cs hcs
      rw [hcs] at hv
      split
      · refine P_bind (Env.member E (InL_head hv) rfl) (fun m _ hm => ?_)
        refine P_bind (Env.members E (InL_tail hv) rfl) (fun ms _ hms => ?_)
        exact P_ok ⟨fun _ h => by cases h; exact hm, hms⟩
      · refine P_bind (Env.members E hv rfl) (fun ms _ hms => ?_)
        exact P_ok ⟨nofun, hms⟩
  · obtain ⟨inv, ss⟩ := x
    obtain ⟨h1, h2⟩ := hx
    refine P_ok (Kid_of (T_concat (T_pre (T_ifDangling (T_concat ?_)))))
    refine (congrArg (T .L · .N) (List.append_nil _)).mpr ?_
    have tail : ∀ {ms : List (Bool × Prog)}, Mems .N ms → ms ≠ [] → T .L [.indent (intersperseBody ms), .nl, t "}"] .N := by
      intro ms hm hne
      exact T_indent (T_interBodyNe hm hne (by decide) (T_nl (by decide) (T_tN (by decide) (T_nil (by decide)))))
    dsimp only at h1 h2
    cases inv with
    | none =>
      cases ss with
      | nil => exact T_concat (T_tN (by decide) (T_nl (by decide) (T_tN (by decide) (T_nil (by decide)))))
      | cons m ms => exact T_tN (by decide) (T_indent (T_nl (by decide) (T_start (by decide) (tail h2 (by simp)))))
    | some m =>
      obtain ⟨tr, c⟩ := m
      have h1 := h1 _ rfl
      cases ss with
      | nil =>
        refine T_tN (by decide) (T_indent (T_concat (T_nl (by decide) (T_kid h1 (by decide) ?_))))
        exact T_indent (T_interBody h2 (by decide) (T_nl (by decide) (T_tN (by decide) (T_nil (by decide)))))
      | cons m ms =>
        refine T_tN (by decide) (T_indent (T_concat (T_nl (by decide) (T_kid h1 (by decide) ?_))))
        cases tr
        · exact T_indent (T_sep (by decide) (tail h2 (by simp)))
        · exact T_sep (by decide) (tail h2 (by simp))

theorem constructInvocation_t (E : Env root rec) (hn : In root n) : P (New.constructInvocation rec n) (Kid .N) := by
  unfold New.constructInvocation
  refine P_bind (Env.optP E (InO_N hn) rfl) (fun i _ hi => ?_)
  refine P_bind (Env.optP E (InO_K hn) rfl) (fun c _ hc => ?_)
  refine P_bind (P_opt (e := .N) (fun x _ => ?_)) (fun o _ ho => ?_)
  · split
    · exact P_ok (Kid_of (T_tN (by decide) (T_nil (by decide))))
    · split
      · exact P_ok (Kid_of (T_tN (by decide) (T_nil (by decide))))
      · exact P_err
  wt E hn

theorem typeParameter_t (E : Env root rec) (hn : In root n) : P (New.typeParameter rec n) (Kid .N) := by
  unfold New.typeParameter
  wt E hn

theorem fieldAccess_t (E : Env root rec) (hn : In root n) : P (New.fieldAccess rec n) (Kid .N) := by
  unfold New.fieldAccess New.fieldNavigation
  wt E hn

theorem tryStatement_t (E : Env root rec) (hn : In root n) : P (New.tryStatement rec n) (Kid .N) := by
  unfold New.tryStatement
  refine P_bind (Env.check E) (fun _ _ _ => ?_)
  refine P_bind (Q := Seg) ?_ (fun i _ hi => ?_)
  · split
    · rename_i f hf
      refine P_bind (Env.mapLed E (InL_try hn) rfl) (fun cs _ hc => ?_)
      refine P_bind (Env.ledP E _ _ (in_tryCByK hn hf) rfl) (fun g _ hg => ?_)
      exact P_ok (Seg_of (T_concat (T_leds hc (by decide) (T_led hg (by decide) (T_nil (by decide))))))
    · refine P_bind (Env.csByK E hn) (fun ls _ hl => ?_)
      refine P_bind (Env.mapLed E hl.1 rfl) (fun cs _ hc => ?_)
      exact P_ok (Seg_of (T_concat (T_leds hc (by decide) (T_nil (by decide)))))
  · refine P_bind (Env.cByN E hn) (fun b _ hb => ?_)
    refine P_bind (Env.recP E _ _ hb rfl) (fun b _ hb => ?_)
    refine P_ok (Kid_of (T_bwcpN (T_tR (by decide) (T_kid hb (by decide) (T_concat ?_))) (T_nil (by decide))))
    exact T_seg hi (by decide) (T_nil (by decide))

theorem breakStatement_t (E : Env root rec) (hn : In root n) : P (New.breakStatement rec n) (Kid .N) := by
  unfold New.breakStatement New.jump
  wt E hn

theorem continueStatement_t (E : Env root rec) (hn : In root n) : P (New.continueStatement rec n) (Kid .N) := by
  unfold New.continueStatement New.jump
  wt E hn

theorem whenSObjectType_t (E : Env root rec) (hn : In root n) : P (New.whenSObjectType rec n) (Kid .N) := by
  unfold New.whenSObjectType
  refine P_bind (Env.mapP E (InL_filter (InL_vec hn)) rfl) (fun cs _ hc => ?_)
  split
  · rename_i ty i h1 h2
    have hi := E.text i (InL_last (InL_filter (InL_vec hn)) h2)
    have ht := Kid_last hc h1
    exact P_ok (Kid_of (T_bwcpN (T_kid ht (by decide) (T_tB (by decide) (T_val hi (by decide) (T_nil (by decide))))) (T_nil (by decide))))
  · exact P_err

theorem versionExpression_t (E : Env root rec) (hn : In root n) : P (New.versionExpression rec n) (Kid .N) := by
  unfold New.versionExpression
  refine P_bind (Env.check E) (fun _ _ _ => ?_)
  refine P_bind (Env.optP E (InO_N hn) rfl) (fun o _ ho => ?_)
  refine P_ok (Kid_of (T_bwcpN (T_tN (by decide) ?_) (T_nil (by decide))))
  cases o with
  | none => exact T_tN (by decide) (T_nil (by decide))
  | some p => exact T_kid (OptK_get ho) (by decide) (T_nil (by decide))

theorem sObjectReturn_t (E : Env root rec) (hn : In root n) : P (New.sObjectReturn rec n) (Kid .N) := by
  unfold New.sObjectReturn
  refine P_bind (Env.check E) (fun _ _ _ => ?_)
  refine P_bind (Q := Seg) ?_ (fun i _ hi => ?_)
  · split
    · exact P_ok (Seg_of (T_nil (by decide)))
    · rename_i s hs
      have hk := kind_tryCByK hs
      have hi := in_tryCByK hn hs
      refine P_bind (Env.mapP E (InL_vec hi) rfl) (fun fs hfs hf => ?_)
      have hne := mapR_ne hfs (E.full s hi (by rw [hk]; decide))
      have hl : Kid .N (Prog.intersperse fs (.after .softline)) := Kid_of (T_interNe hf hne (by decide) (by decide) (T_nil (by decide)))
      wt E hn
  · wt E hn

theorem mapKeyInitializer_t (E : Env root rec) (hn : In root n) : P (New.mapKeyInitializer rec n) (Kid .N) := by
  unfold New.mapKeyInitializer
  refine P_bind (Env.check E) (fun _ _ _ => ?_)
  have hv := InL_vec hn
  split
  · rename_i a b hab
    rw [hab] at hv
    have ha := InL_head hv
    have hb := InL_head (InL_tail hv)
    wt E hn
  · exact P_err

theorem groupByClause_t (E : Env root rec) (hn : In root n) : P (New.groupByClause rec n) (Kid .N) := by
  unfold New.groupByClause
  refine P_bind (Env.check E) (fun _ _ hk => ?_)
  split
  · refine P_bind (Env.dispatchs E (e := .N) (InL_filter (InL_vec hn)) (by decide)) (fun es hes he => ?_)
    refine P_bind (Env.mapP E (InL_filter (InL_vec hn)) rfl) (fun hs _ hh => ?_)
    refine P_ok (Kid_of (T_bwcpN (T_tR (by decide) (T_interMap hes (E.grp n hn hk) he (by decide) (by decide) ?_)) (T_nil (by decide))))
    split
    · rename_i h hl
      exact T_soft (by decide) (T_kid (Kid_last hh hl) (by decide) (T_nil (by decide)))
    · exact T_nil (by decide)
  · exact P_err

theorem variableDeclarator_t (E : Env root rec) (hn : In root n) : P (New.variableDeclarator rec n) (Kid .N) := by
  unfold New.variableDeclarator
  refine P_bind (Env.check E) (fun _ _ hk => ?_)
  refine P_bind (Env.optP E (InO_K hn) rfl) (fun op hop ho => ?_)
  refine P_bind (Env.cByN E hn) (fun m _ hm => ?_)
  refine P_bind (Env.recP E _ _ hm rfl) (fun m _ hm => ?_)
  split
  · exact P_ok (Kid_of (T_bwcpN (T_concat (T_kid hm (by decide) (T_nil (by decide)))) (T_nil (by decide))))
  · rename_i v hv
    have h1 := E.asg n hn hk (by rw [hv]; simp)
    have h2 : ∃ p, op = some p := by
      cases h : n.tryCByK "assignment_operator" with
      | none => exact absurd h h1
      | some x =>
        rw [h] at hop
        simp only [optR] at hop
        split at hop
        · exact ⟨_, (Except.ok.inj hop).symm⟩
        · cases hop
    obtain ⟨p, rfl⟩ := h2
    have hp : Kid .N p := OptK_get ho
    refine P_bind (Env.recP E _ _ (in_tryCByN hn hv) rfl) (fun x _ hx => ?_)
    refine P_ok (Kid_of (T_bwcpN ?_ (T_nil (by decide))))
    split
    · exact T_concat (T_kid hm (by decide) (T_tB (by decide) (T_kid hp (by decide) (T_tB (by decide) (T_kid hx (by decide) (T_nil (by decide)))))))
    · exact T_group (by decide) (T_indent (T_concat (T_kid hm (by decide) (T_tB (by decide) (T_kid hp (by decide)
        (T_soft (by decide) (T_kid hx (by decide) (T_nil (by decide)))))))))

theorem usingLookupClause_t (E : Env root rec) (hn : In root n) : P (New.usingLookupClause rec n) (Kid .N) := by
  unfold New.usingLookupClause
  exact P_bind (Env.check E) (fun _ _ hk => absurd hk (E.look n hn).1)

theorem usingLookupBindClause_t (E : Env root rec) (hn : In root n) : P (New.usingLookupBindClause rec n) (Kid .N) := by
  unfold New.usingLookupBindClause
  exact P_bind (Env.check E) (fun _ _ hk => absurd hk (E.look n hn).2)

theorem withDataCatFilter_t (E : Env root rec) (hn : In root n) : P (New.withDataCatFilter rec n) (Kid .N) := by
  unfold New.withDataCatFilter
  refine P_bind (Env.check E) (fun _ _ _ => ?_)
  refine P_bind (Env.csByK E hn) (fun ls _ hl => ?_)
  obtain ⟨hl, _⟩ := hl
  split
  · have h1 := InL_head hl
    have h2 := InL_tail hl
    refine P_bind (Env.recP E _ _ h1 rfl) (fun a _ ha => ?_)
    refine P_bind (Env.mapP E h2 rfl) (fun ds _ hd => ?_)
    refine P_bind (Env.cByK E hn) (fun b _ hb => ?_)
    refine P_bind (Env.recP E _ _ hb rfl) (fun b _ hb => ?_)
    refine P_ok (Kid_of (T_bwcpN (T_kid ha (by decide) (T_tB (by decide) (T_kid hb (by decide) (T_tB (by decide) ?_)))) (T_nil (by decide))))
    split
    · exact T_kid (Kids_head hd) (by decide) (T_nil (by decide))
    · exact T_paren hd (by decide) (T_nil (by decide))
  · exact P_err

theorem conditionExpression_t (E : Env root rec) (hn : In root n) {o : Option String} : P (New.conditionExpression rec o n) (Kid .N) := by
  unfold New.conditionExpression
  wt E hn

theorem andExpression_t (E : Env root rec) (hn : In root n) : P (New.andExpression rec n) (Kid .N) := by
  unfold New.andExpression
  refine P_bind (Env.check E) (fun _ _ _ => ?_)
  refine P_bind (P_map (e := .N) (fun x hx => conditionExpression_t E (in_vec hn hx))) (fun _ _ _ => ?_)
  wt E hn

theorem orExpression_t (E : Env root rec) (hn : In root n) : P (New.orExpression rec n) (Kid .N) := by
  unfold New.orExpression
  refine P_bind (Env.check E) (fun _ _ _ => ?_)
  refine P_bind (P_map (e := .N) (fun x hx => conditionExpression_t E (in_vec hn hx))) (fun _ _ _ => ?_)
  wt E hn

theorem notExpression_t (E : Env root rec) (hn : In root n) : P (New.notExpression rec n) (Kid .N) := by
  unfold New.notExpression
  refine P_bind (Env.check E) (fun _ _ _ => ?_)
  refine P_bind (Env.firstC E hn) (fun c _ hc => ?_)
  refine P_bind (conditionExpression_t E hc) (fun _ _ _ => ?_)
  wt E hn

theorem geoLocationTypeVariant_t (E : Env root rec) (hn : In root n) : P (New.geoLocationTypeVariant rec n) (Kid .N) := by
  unfold New.geoLocationTypeVariant
  refine P_bind (Env.firstC E hn) (fun c _ hc => ?_)
  split
  · wt E hn
  split
  · wt E hn
  split
  · refine P_bind (Env.csByK E hn) (fun ls _ hl => ?_)
    obtain ⟨hl, _⟩ := hl
    split
    · have h1 := InL_head hl
      have h2 := InL_head (InL_tail hl)
      wt E hn
    · exact P_err
  · exact P_err

theorem ifStatement_t (E : Env root rec) (hn : In root n) : P (New.ifStatement rec n) (Kid .N) := by
  unfold New.ifStatement
  refine P_bind (Env.check E) (fun _ _ _ => ?_)
  refine P_bind (Env.cByN E hn) (fun c _ hc => ?_)
  refine P_bind (Env.recP E _ _ hc rfl) (fun c _ hc => ?_)
  refine P_bind (Env.cByN E hn) (fun d _ hd => ?_)
  refine P_bind (Env.recP E _ _ hd rfl) (fun s _ hs => ?_)
  have first : ∀ {qs e}, T .N qs e → T .L (([t "if ", c] ++ (if d.kind = "block" then [t " ", s] else [.indent .nl, .indent s])) ++ qs) e := by
    intro qs e h
    refine T_tB (by decide) (T_kid hc (by decide) ?_)
    split
    · exact T_tB (by decide) (T_kid hs (by decide) h)
    · exact T_indent (T_nl (by decide) (T_indent (T_kid hs (by decide) h)))
  dsimp only
  split
  · refine P_ok (Kid_of (T_bwcpN ?_ (T_nil (by decide))))
    have := first (T_nil (e := .N) (by decide))
    rwa [List.append_nil] at this
  · rename_i alt halt
    split
    · exact P_err
    · rename_i l hl
      refine P_bind (Env.recP E _ _ (.child hn (List.mem_of_find?_eq_some hl)) rfl) (fun l _ hl => ?_)
      refine P_bind (Env.recP E _ _ (in_tryCByN hn halt) rfl) (fun r _ hr => ?_)
      refine P_ok (Kid_of (T_bwcpN ?_ (T_nil (by decide))))
      rw [List.append_assoc]
      refine first ?_
      split
      · exact T_tB (by decide) (T_kid hl (by decide) (T_tB (by decide) (T_kid hr (by decide) (T_nil (by decide)))))
      · refine T_nl (by decide) (T_kid hl (by decide) ?_)
        split
        · exact T_tB (by decide) (T_kid hr (by decide) (T_nil (by decide)))
        · exact T_indent (T_nl (by decide) (T_kid hr (by decide) (T_nil (by decide))))

end Afmt.Trail
