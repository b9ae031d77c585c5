import Verif.Ast.Knot
import Verif.Ends.Tac

/-!
# Ends of lines in the programs of the constructors: by hand
-/

set_option linter.unusedVariables false
set_option linter.unusedSectionVars false
set_option linter.unusedSimpArgs false

namespace Afmt.Ends
open Afmt.Prog
open Afmt.Notes (Quiet QuietO quietO_none child_vec child_named child_tryCByN child_tryCByK child_cByN child_cByK child_csByK InL_mem InO_mem hush)
open Afmt.Lines (P P_bind P_ok P_pure P_err P_any P_mono P_get P_of P_guard InL InO InL_vec InL_named InL_try InL_filter InL_drop InL_tail InL_head InL_last InO_K InO_N InO_first mapR_ne fullKinds)
open Afmt.Trail (Gate Tight ledCls plainly Tight_lower Tight_upper Tight_quote Tight_colon)
set_option maxRecDepth 4000
variable [Gate] [K : Fair] {root : Node} {rec : Rec} {n : Loc} {x : St} {cfg : Cfg}

theorem root_t (E : Env root n .Q rec) (hn : In root n) : P (New.root cfg rec n) (fun p => T .N [p] .B) := by
  unfold New.root
  refine P_bind (Env.check E) (fun _ _ _ => ?_)
  refine P_bind (Env.members E (fun _ h => child_vec h) rfl) (fun ms _ hm => ?_)
  refine P_ok (T_ifDangling (T_concat ?_))
  exact T_interBody hm ⟨by decide, rfl⟩ (T_nl (by decide) (T_nil (by els)))

theorem modifiers_t (E : Env root n .N rec) (hn : In root n) (hq : Quiet n.id) : P (New.modifiers rec n) (Kid .L) := by
  unfold New.modifiers
  refine P_bind (Env.check E) (fun _ _ hk => ?_)
  refine P_bind (Env.mapP E (InL_try hn) rfl) (fun as has ha => ?_)
  refine P_bind (Env.mapP E (InL_try hn) rfl) (fun ms hms hm => ?_)
  refine P_ok (Kid_of (T_bwc' hq ?_))
  rw [List.append_nil]
  have hb : Kids .B as := Kids_end ha (by decide)
  refine T_kidsB hb (by decide) ?_
  split
  · exact T_nil (by els)
  · rename_i he
    exact T_interNe hm (fun h => he (by rw [h]; rfl)) (by decide) (by decide) (T_tB (by decide) (T_nil (by els)))

theorem annotation_t (E : Env root n .N rec) (hn : In root n) (hq : Quiet n.id) : P (New.annotation rec n) (Kid .M) := by
  unfold New.annotation
  refine P_bind (Env.check E) (fun _ _ hk => ?_)
  have h : P (optR (n.tryCByN "arguments") (rec .annotationArgumentList)) (fun o => Seg (opt o)) := by
    unfold optR
    split
    · exact P_ok (Seg_of (T_nil (by els)))
    · rename_i l hl
      have h2 := E.args l (in_tryCByN hn hl)
      generalize hr : rec .annotationArgumentList l = r at h2
      cases r with
      | error e => exact P_err
      | ok p => exact P_ok (Seg_of (P_get (Q := fun p => T .N [p] .N) h2 rfl))
  refine P_bind h (fun o _ ho => ?_)
  refine P_bind (Env.cByN E hn) (fun _ hc' hc => ?_)
  refine P_bind (Env.nearP E _ _ (child_cByN hc') rfl rfl) (fun _ _ hv => ?_)
  refine P_ok (Kid_of (T_concat (T_bwcpI E hn (by decide) (T_tN (by decide) (T_kid hv (by decide) (T_segL ho (by decide) (by decide)))) ?_)))
  rw [pst_quiet hq]
  exact T_nlLast (by decide) (by decide)

theorem annotationArgumentList_t (E : Env root n .N rec) (hn : In root n) (hq : Quiet n.id) : P (New.annotationArgumentList rec n) (fun p => T .N [p] .N) := by
  have key : ∀ {r : R Prog}, P r (Kid (pst n.id)) → P r (fun p => T .N [p] .N) := fun h => by
    rw [pst_quiet hq] at h
    exact P_mono h (fun _ h => T_kid h (by decide) (T_nil (by els)))
  unfold New.annotationArgumentList
  split
  · exact P_ok (T_concat (T_nil (by els)))
  · split
    all_goals refine key ?_; et E hn

theorem methodInvocation_t (E : Env root n .N rec) (hn : In root n) : P (New.methodInvocation rec n) (Kid (pst n.id)) := by
  unfold New.methodInvocation New.propertyNavigation
  et E hn

theorem loopBody_t (E : Env root n .N rec) {b : Loc} (hb : b ∈ n.children) : P (New.loopBody rec b) Seg := by
  unfold New.loopBody
  et E hb

/-- The semicolons of a `for` statement. -/
theorem semis_quiet (E : Env root n x rec) (hn : In root n) : ∀ {ps : List Punc},
    mapR Punc.new (n.children.filter (fun c => c.kind == ";")) = .ok ps → ∀ p ∈ ps, Quiet p.id := by
  have key : ∀ {xs : List Loc} {ps : List Punc}, (∀ l ∈ xs, l ∈ n.children ∧ l.kind = ";") → mapR Punc.new xs = .ok ps → ∀ p ∈ ps, Quiet p.id := by
    intro xs
    induction xs with
    | nil => intro ps _ h p hp; cases h; cases hp
    | cons l xs ih =>
      intro ps hx h p hp
      rw [mapR] at h
      split at h
      · cases h
      · rename_i b hb
        split at h
        · cases h
        · rename_i bs hbs
          cases h
          rcases List.mem_cons.1 hp with rfl | hp
          · have := hx l (by simp)
            unfold Punc.new at hb
            rw [this.2] at hb
            cases hb
            exact E.semi n hn l this.1 this.2
          · exact ih (fun y hy => hx y (by simp [hy])) hbs p hp
  intro ps h
  exact key (fun l hl => ⟨(List.mem_filter.1 hl).1, eq_of_beq (List.mem_filter.1 hl).2⟩) h

theorem forStatement_t (E : Env root n .N rec) (hn : In root n) : P (New.forStatement rec n) (Kid (pst n.id)) := by
  unfold New.forStatement
  refine P_bind (Env.check E) (fun _ _ hk => ?_)
  have hupd := E.upd n hn hk
  refine P_bind (Env.nearO E (fun _ h => child_tryCByN h) rfl rfl) (fun i _ hi => ?_)
  refine P_bind (Env.optP E (InO_N hn) rfl) (fun c _ hc => ?_)
  refine P_bind (Env.optP E (InO_N hn) rfl) (fun u hu' hu => ?_)
  refine P_bind (Q := fun ps => ∀ p ∈ ps, Quiet p.id) (P_of (fun ps hps => semis_quiet E hn hps)) (fun semis _ hsm => ?_)
  refine P_bind (Env.cByN E hn) (fun b hb' hb => ?_)
  refine P_bind (loopBody_t E (child_cByN hb')) (fun b _ hb => ?_)
  have hu1 : ∃ p, u = some p := by
    cases h : n.tryCByN "update" with
    | none => exact absurd h hupd
    | some x =>
      rw [h] at hu'
      simp only [optR] at hu'
      split at hu'
      · exact ⟨_, (Except.ok.inj hu').symm⟩
      · cases hu'
  obtain ⟨u, rfl⟩ := hu1
  refine P_bind (Q := fun ps => ∃ p q, ps = [p, q, .concat [t " ", u]] ∧ Kid .N p ∧ T .M [q] .N) ?_ (fun ps _ hps => ?_)
  · simp only [endOf] at hi hc
    have hp : ∀ s ∈ semis, Kid .N (.punct s) := fun s h => Kid_of (T_punct (hsm s h) (by decide) (T_nil (by els)))
    have hs : ∀ {p}, Kid .N p → T .M [.concat [t " ", p]] .N := fun h =>
      T_concat (T_tB (by decide) (T_kid h (by decide) (T_nil (by els))))
    have hq : ∀ s ∈ semis, T .M [.punct s] .N := fun s h => T_punct (hsm s h) (by decide) (T_nil (by els))
    split
    · exact P_ok ⟨_, _, rfl, OptK_get hi, hs (OptK_get hc)⟩
    · exact P_ok ⟨_, _, rfl, OptK_get hi, hq _ (by simp)⟩
    · exact P_ok ⟨_, _, rfl, hp _ (by simp), hs (OptK_get hc)⟩
    · exact P_ok ⟨_, _, rfl, hp _ (by simp), hq _ (by simp)⟩
    · exact P_err
  · obtain ⟨p, q, rfl, h1, h2⟩ := hps
    refine P_ok (Kid_of (T_bwcpI E hn (by decide) (T_tB (by decide) (T_group rfl ?_)) (T_nil (by els))))
    show T .B (.concat [t "(", .indent .maybeline, .indent (.concat [p, .maybeline, q, .maybeline, .concat [t " ", u]]), .maybeline, t ")"] :: b) .N
    refine T_concat (T_tN (by decide) (T_indent (T_maybe (by decide) (T_indent (T_concat ?_)))))
    refine T_kid h1 (by decide) (T_mayM (by decide) (T_cons h2 (T_mayM (by decide) (T_concat (T_tB (by decide) ?_)))))
    exact T_kid (OptK_get hu) (by decide) (T_maybe (by decide) (T_tN (by decide) (T_segL hb (by decide) (by decide))))

theorem enhancedForStatement_t (E : Env root n .N rec) (hn : In root n) : P (New.enhancedForStatement rec n) (Kid (pst n.id)) := by
  unfold New.enhancedForStatement New.loopBody
  et E hn

theorem constructorBody_t (E : Env root n .Q rec) (hn : In root n) : P (New.constructorBody cfg rec n) (Kid (pst n.id)) := by
  unfold New.constructorBody
  refine P_bind (Q := fun x => (∀ m, x.1 = some m → Kid .Q m.2 ∧ (x.2 = [] → Kid .N m.2)) ∧ Mems .Q x.2) ?_ (fun x _ hx => ?_)
  · have hv : ∀ l ∈ n.childrenVec, l ∈ n.children := fun _ h => child_vec h
    split
    · exact P_ok ⟨nofun, Mems_nil⟩
    · rename_i c cs hcs
      rw [hcs] at hv
      split
      · rename_i hkind
        refine P_bind (Env.member E (hv _ (by simp)) rfl) (fun m hm' hm => ?_)
        refine P_bind (Env.members E (fun l hl => hv l (by simp [hl])) rfl) (fun ms hms' hms => ?_)
        refine P_ok ⟨fun _ h => ?_, hms⟩
        cases h
        refine ⟨hm, fun he => ?_⟩
        dsimp only at he
        subst he
        have hnil : cs = [] := by
          cases cs with
          | nil => rfl
          | cons y ys => exact absurd rfl (mapR_ne hms' (by simp))
        subst hnil
        unfold New.bodyMember at hm'
        split at hm'
        · cases hm'
        · rename_i p hp
          split at hm'
          · cases hm'
          · cases hm'; exact P_get (E.own .constructInvocation c (hv c (by simp)) (E.lone c hcs hkind) rfl) hp
      · refine P_bind (Env.members E hv rfl) (fun ms _ hms => ?_)
        exact P_ok ⟨nofun, hms⟩
  · obtain ⟨inv, ss⟩ := x
    obtain ⟨h1, h2⟩ := hx
    refine P_ok (Kid_of (T_concat (T_pre (by decide) (T_ifDangling (T_concat ?_)))))
    refine (congrArg (T .L · (pst n.id)) (List.append_nil _)).mpr (T_end (e := .N) ?_ (St.N_le _))
    have tail : ∀ {ms : List (Bool × Prog)}, Mems .Q ms → ms ≠ [] → T .L [.indent (intersperseBody ms), .nl, t "}"] .N := by
      intro ms hm hne
      exact T_indent (T_interBodyNe hm hne (by decide) (T_nl (by decide) (T_tN (by decide) (T_nil (by els)))))
    dsimp only at h1 h2
    cases inv with
    | none =>
      cases ss with
      | nil => exact T_concat (T_tN (by decide) (T_nl (by decide) (T_tN (by decide) (T_nil (by els)))))
      | cons m ms => exact T_tN (by decide) (T_indent (T_nl (by decide) (T_start (by decide) (tail h2 (by simp)))))
    | some m =>
      obtain ⟨tr, c⟩ := m
      obtain ⟨h3, h1'⟩ := h1 _ rfl
      clear h1
      have h1 := h3
      cases ss with
      | nil =>
        refine T_tN (by decide) (T_indent (T_concat (T_nl (by decide) (T_kid (h1' rfl) (by decide) ?_))))
        exact T_indent (T_interBody h2 ⟨by decide, rfl⟩ (T_nl (by decide) (T_tN (by decide) (T_nil (by els)))))
      | cons m ms =>
        refine T_tN (by decide) (T_indent (T_concat (T_nl (by decide) (T_kid h1 (by decide) ?_))))
        cases tr
        · exact T_indent (T_sep (by decide) (tail h2 (by simp)))
        · exact T_sep (by decide) (tail h2 (by simp))

theorem constructInvocation_t (E : Env root n .N rec) (hn : In root n) : P (New.constructInvocation rec n) (Kid (pst n.id)) := by
  unfold New.constructInvocation
  refine P_bind (Env.optP E (InO_N hn) rfl) (fun i _ hi => ?_)
  refine P_bind (Env.optP E (InO_K hn) rfl) (fun c _ hc => ?_)
  refine P_bind (P_opt (e := .N) (fun x _ => ?_)) (fun o _ ho => ?_)
  · split
    · exact P_ok (Kid_of (T_tN (by decide) (T_nil (by els))))
    · split
      · exact P_ok (Kid_of (T_tN (by decide) (T_nil (by els))))
      · exact P_err
  et E hn

theorem typeParameter_t (E : Env root n .N rec) (hn : In root n) : P (New.typeParameter rec n) (Kid (pst n.id)) := by
  unfold New.typeParameter
  et E hn

theorem fieldAccess_t (E : Env root n .N rec) (hn : In root n) : P (New.fieldAccess rec n) (Kid (pst n.id)) := by
  unfold New.fieldAccess New.fieldNavigation
  et E hn

theorem tryStatement_t (E : Env root n .N rec) (hn : In root n) : P (New.tryStatement rec n) (Kid (pst n.id)) := by
  unfold New.tryStatement
  refine P_bind (Env.check E) (fun _ _ _ => ?_)
  refine P_bind (Q := Seg) ?_ (fun i _ hi => ?_)
  · split
    · rename_i f hf
      refine P_bind (Env.mapLed E (InL_try hn) rfl) (fun cs _ hc => ?_)
      refine P_bind (Env.ledP E _ _ (in_tryCByK hn hf) rfl) (fun g _ hg => ?_)
      exact P_ok (Seg_of (T_concat (T_leds hc (by decide) (T_led hg (by decide) (T_nil (by els))))))
    · refine P_bind (Env.csByK E hn) (fun ls _ hl => ?_)
      refine P_bind (Env.mapLed E hl.1 rfl) (fun cs _ hc => ?_)
      exact P_ok (Seg_of (T_concat (T_leds hc (by decide) (T_nil (by els)))))
  · refine P_bind (Env.cByN E hn) (fun b hb' hb => ?_)
    refine P_bind (Env.nearP E _ _ (child_cByN hb') rfl rfl) (fun b _ hb => ?_)
    refine P_ok (Kid_of (T_bwcpI E hn (by decide) (T_tR (by decide) (T_kid hb (by decide) (T_concat ?_))) (T_nil (by els))))
    exact T_seg hi (by decide) (T_nil (by els))

theorem breakStatement_t (E : Env root n .N rec) (hn : In root n) : P (New.breakStatement rec n) (Kid (pst n.id)) := by
  unfold New.breakStatement New.jump
  et E hn

theorem continueStatement_t (E : Env root n .N rec) (hn : In root n) : P (New.continueStatement rec n) (Kid (pst n.id)) := by
  unfold New.continueStatement New.jump
  et E hn

theorem whenSObjectType_t (E : Env root n .N rec) (hn : In root n) : P (New.whenSObjectType rec n) (Kid (pst n.id)) := by
  unfold New.whenSObjectType
  refine P_bind (Env.mapP E (InL_filter (InL_vec hn)) rfl) (fun cs _ hc => ?_)
  split
  · rename_i ty i h1 h2
    have hi := E.text i (InL_last (InL_filter (InL_vec hn)) h2) (ex_vec (List.mem_filter.1 (List.mem_of_getLast? h2)).1)
    have ht := Kid_last hc h1
    exact P_ok (Kid_of (T_bwcpI E hn (by decide) (T_kid ht (by decide) (T_tB (by decide) (T_val hi (by decide) (T_nil (by els))))) (T_nil (by els))))
  · exact P_err

theorem versionExpression_t (E : Env root n .N rec) (hn : In root n) : P (New.versionExpression rec n) (Kid (pst n.id)) := by
  unfold New.versionExpression
  refine P_bind (Env.check E) (fun _ _ _ => ?_)
  refine P_bind (Env.nearO E (fun _ h => child_tryCByN h) rfl rfl) (fun o _ ho => ?_)
  refine P_ok (Kid_of (T_bwcpI E hn (by decide) (T_tN (by decide) ?_) (T_nil (by els))))
  cases o with
  | none => exact T_tN (by decide) (T_nil (by els))
  | some p => exact T_kid (OptK_get ho) (by decide) (T_nil (by els))

theorem sObjectReturn_t (E : Env root n .N rec) (hn : In root n) : P (New.sObjectReturn rec n) (Kid (pst n.id)) := by
  unfold New.sObjectReturn
  refine P_bind (Env.check E) (fun _ _ _ => ?_)
  refine P_bind (Q := Seg) ?_ (fun i _ hi => ?_)
  · split
    · exact P_ok (Seg_of (T_nil (by els)))
    · rename_i s hs
      have hk := kind_tryCByK hs
      have hi := in_tryCByK hn hs
      refine P_bind (Env.mapP E (InL_vec hi) rfl) (fun fs hfs hf => ?_)
      have hne := mapR_ne hfs (E.full s hi (by rw [hk]; decide))
      have hl : Kid .N (Prog.intersperse fs (.after .softline)) := Kid_of (T_interNe hf hne (by decide) (by decide) (T_nil (by els)))
      et E hn
      exact T_nil (E.kids s (child_tryCByK hs))
  · et E hn

theorem mapKeyInitializer_t (E : Env root n .N rec) (hn : In root n) : P (New.mapKeyInitializer rec n) (Kid (pst n.id)) := by
  unfold New.mapKeyInitializer
  refine P_bind (Env.check E) (fun _ _ _ => ?_)
  have hv := InL_vec hn
  split
  · rename_i a b hab
    rw [hab] at hv
    have ha := InL_head hv
    have hb := InL_head (InL_tail hv)
    et E hn
  · exact P_err

theorem groupByClause_t (E : Env root n .N rec) (hn : In root n) : P (New.groupByClause rec n) (Kid (pst n.id)) := by
  unfold New.groupByClause
  refine P_bind (Env.check E) (fun _ _ hk => ?_)
  split
  · refine P_bind (Env.dispatchs E (e := .N) (InL_filter (InL_vec hn)) (by decide)) (fun es hes he => ?_)
    refine P_bind (Env.mapP E (InL_filter (InL_vec hn)) rfl) (fun hs _ hh => ?_)
    refine P_ok (Kid_of (T_bwcpI E hn (by decide) (T_tR (by decide) (T_interMap hes (E.grp n hn hk) he (by decide) (by decide) ?_)) (T_nil (by els))))
    split
    · rename_i h hl
      exact T_soft (by decide) (T_kid (Kid_last hh hl) (by decide) (T_nil (by els)))
    · exact T_nil (by els)
  · exact P_err

theorem variableDeclarator_t (E : Env root n .N rec) (hn : In root n) : P (New.variableDeclarator rec n) (Kid (pst n.id)) := by
  unfold New.variableDeclarator
  refine P_bind (Env.check E) (fun _ _ hk => ?_)
  refine P_bind (Env.nearO E (fun _ h => child_tryCByK h) rfl rfl) (fun op hop ho => ?_)
  refine P_bind (Env.cByN E hn) (fun m hm' hm => ?_)
  refine P_bind (Env.nearP E _ _ (child_cByN hm') rfl rfl) (fun m _ hm => ?_)
  split
  · exact P_ok (Kid_of (T_bwcpI E hn (by decide) (T_concat (T_kid hm (by decide) (T_nil (by els)))) (T_nil (by els))))
  · rename_i v hv
    have h1 := E.asg n hn hk (by rw [hv]; simp)
    have h2 : ∃ p, op = some p := by
      cases h : n.tryCByK "assignment_operator" with
      | none => exact absurd h h1
      | some x =>
        rw [h] at hop
        simp only [optR] at hop
        split at hop
        · exact ⟨_, (Except.ok.inj hop).symm⟩
        · cases hop
    obtain ⟨p, rfl⟩ := h2
    have hp : Kid .N p := OptK_get ho
    refine P_bind (Env.nearP E _ _ (child_tryCByN hv) rfl rfl) (fun x _ hx => ?_)
    refine P_ok (Kid_of (T_bwcpI E hn (by decide) ?_ (T_nil (by els))))
    split
    · exact T_concat (T_kid hm (by decide) (T_tB (by decide) (T_kid hp (by decide) (T_tB (by decide) (T_kid hx (by decide) (T_nil (by els)))))))
    · exact T_group rfl (T_indent (T_concat (T_kid hm (by decide) (T_tB (by decide) (T_kid hp (by decide)
        (T_soft (by decide) (T_kid hx (by decide) (T_nil (by els)))))))))

theorem usingLookupClause_t (E : Env root n .N rec) (hn : In root n) : P (New.usingLookupClause rec n) (Kid (pst n.id)) := by
  unfold New.usingLookupClause
  exact P_bind (Env.check E) (fun _ _ hk => absurd hk (E.look n hn).1)

theorem usingLookupBindClause_t (E : Env root n .N rec) (hn : In root n) : P (New.usingLookupBindClause rec n) (Kid (pst n.id)) := by
  unfold New.usingLookupBindClause
  exact P_bind (Env.check E) (fun _ _ hk => absurd hk (E.look n hn).2)

theorem withDataCatFilter_t (E : Env root n .N rec) (hn : In root n) : P (New.withDataCatFilter rec n) (Kid (pst n.id)) := by
  unfold New.withDataCatFilter
  refine P_bind (Env.check E) (fun _ _ _ => ?_)
  refine P_bind (Env.csByK E hn) (fun ls hls hl => ?_)
  have hl : ∀ l ∈ ls, l ∈ n.children := fun _ h => child_csByK hls h
  split
  · refine P_bind (Env.nearP E _ _ (hl _ (by simp)) rfl rfl) (fun a _ ha => ?_)
    refine P_bind (Env.nearL E (fun l h => hl l (by simp [h])) rfl rfl) (fun ds _ hd => ?_)
    refine P_bind (Env.cByK E hn) (fun b hb' hb => ?_)
    refine P_bind (Env.nearP E _ _ (child_cByK hb') rfl rfl) (fun b _ hb => ?_)
    refine P_ok (Kid_of (T_bwcpI E hn (by decide) (T_kid ha (by decide) (T_tB (by decide) (T_kid hb (by decide) (T_tB (by decide) ?_)))) (T_nil (by els))))
    split
    · exact T_kid (Kids_head hd) (by decide) (T_nil (by els))
    · exact T_paren hd (by decide) (T_nil (by els))
  · exact P_err

theorem conditionExpression_t {m : Loc} (E : Env root m x rec) (hn : In root n) {o : Option String} : P (New.conditionExpression rec o n) (Kid .N) := by
  unfold New.conditionExpression
  et E hn

theorem andExpression_t (E : Env root n .N rec) (hn : In root n) : P (New.andExpression rec n) (Kid (pst n.id)) := by
  unfold New.andExpression
  refine P_bind (Env.check E) (fun _ _ _ => ?_)
  refine P_bind (P_map (e := .N) (fun x hx => conditionExpression_t E (in_vec hn hx))) (fun _ _ _ => ?_)
  et E hn

theorem orExpression_t (E : Env root n .N rec) (hn : In root n) : P (New.orExpression rec n) (Kid (pst n.id)) := by
  unfold New.orExpression
  refine P_bind (Env.check E) (fun _ _ _ => ?_)
  refine P_bind (P_map (e := .N) (fun x hx => conditionExpression_t E (in_vec hn hx))) (fun _ _ _ => ?_)
  et E hn

theorem notExpression_t (E : Env root n .N rec) (hn : In root n) : P (New.notExpression rec n) (Kid (pst n.id)) := by
  unfold New.notExpression
  refine P_bind (Env.check E) (fun _ _ _ => ?_)
  refine P_bind (Env.firstC E hn) (fun c _ hc => ?_)
  refine P_bind (conditionExpression_t E hc) (fun _ _ _ => ?_)
  et E hn

theorem geoLocationTypeVariant_t (E : Env root n .N rec) (hn : In root n) : P (New.geoLocationTypeVariant rec n) (Kid (pst n.id)) := by
  unfold New.geoLocationTypeVariant
  refine P_bind (Env.firstC E hn) (fun c _ hc => ?_)
  split
  · et E hn
  split
  · et E hn
  split
  · refine P_bind (Env.csByK E hn) (fun ls hls hl => ?_)
    have hl : ∀ l ∈ ls, l ∈ n.children := fun _ h => child_csByK hls h
    split
    · have h1 := hl _ (List.mem_cons_self ..)
      have h2 := hl _ (List.mem_cons_of_mem _ (List.mem_cons_self ..))
      et E hn
    · exact P_err
  · exact P_err

theorem ifStatement_t (E : Env root n .N rec) (hn : In root n) : P (New.ifStatement rec n) (Kid (pst n.id)) := by
  unfold New.ifStatement
  refine P_bind (Env.check E) (fun _ _ _ => ?_)
  refine P_bind (Env.cByN E hn) (fun c _ hc => ?_)
  refine P_bind (Env.recP E _ _ hc rfl) (fun c _ hc => ?_)
  refine P_bind (Env.cByN E hn) (fun d hd' hd => ?_)
  refine P_bind (Env.nearP E _ _ (child_cByN hd') rfl rfl) (fun s _ hs => ?_)
  have first : ∀ {qs e}, T .N qs e → T .L (([t "if ", c] ++ (if d.kind = "block" then [t " ", s] else [.indent .nl, .indent s])) ++ qs) e := by
    intro qs e h
    refine T_tB (by decide) (T_kid hc (by decide) ?_)
    split
    · exact T_tB (by decide) (T_kid hs (by decide) h)
    · exact T_indent (T_nl (by decide) (T_indent (T_kid hs (by decide) h)))
  dsimp only
  split
  · refine P_ok (Kid_of (T_bwcpI E hn (by decide) ?_ (T_nil (by els))))
    have := first (T_nil (e := .N) (by decide))
    rwa [List.append_nil] at this
  · rename_i alt halt
    split
    · exact P_err
    · rename_i l hl
      refine P_bind (Env.nearP E _ _ (List.mem_of_find?_eq_some hl) rfl rfl) (fun l _ hl => ?_)
      refine P_bind (Env.nearP E _ _ (child_tryCByN halt) rfl rfl) (fun r _ hr => ?_)
      refine P_ok (Kid_of (T_bwcpI E hn (by decide) ?_ (T_nil (by els))))
      rw [List.append_assoc]
      refine first ?_
      split
      · exact T_tB (by decide) (T_kid hl (by decide) (T_tB (by decide) (T_kid hr (by decide) (T_nil (by els)))))
      · refine T_nl (by decide) (T_kid hl (by decide) ?_)
        split
        · exact T_tB (by decide) (T_kid hr (by decide) (T_nil (by els)))
        · exact T_indent (T_nl (by decide) (T_kid hr (by decide) (T_nil (by els))))

end Afmt.Ends
