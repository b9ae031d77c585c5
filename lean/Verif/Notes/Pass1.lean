import Verif.Ast.Knot
import Verif.Notes.Tac

/-!
# Line breaks of the programs of the constructors: by hand
-/

set_option linter.unusedVariables false
set_option linter.unusedSectionVars false
set_option linter.unusedSimpArgs false

namespace Afmt.Notes
open Afmt.Prog
open Afmt.Lines (P P_bind P_ok P_pure P_err P_any P_mono Tidy InL InO fullKinds TidyTree InL_vec InL_named InL_try InL_filter InL_drop InL_tail InL_head InL_last InO_K InO_N InO_first mapR_ne Tidy_lower Tidy_upper Tidy_quote Tidy_colon P_get P_of P_guard)
set_option maxRecDepth 4000
variable [K : Src] {root : Node} {rec : Rec} {n : Loc} {x : St} {cfg : Cfg}

theorem root_t (E : Env root n .P rec) (hn : In root n) : P (New.root cfg rec n) (fun p => T .I [p] .P) := by
  unfold New.root
  refine P_bind (Env.check E) (fun _ _ _ => ?_)
  refine P_bind (Env.members E (fun _ h => child_vec h) rfl) (fun ms _ hm => ?_)
  refine P_ok (T_ifDangling (T_concat ?_))
  exact T_interBodyI hm (by decide) (T_nl (T_nil (by lst)))

theorem modifiers_t (E : Env root n .I rec) (hn : In root n) (hq : Quiet n.id) : P (New.modifiers rec n) (Kid .P) := by
  unfold New.modifiers
  refine P_bind (Env.check E) (fun _ _ hk => ?_)
  refine P_bind (Env.mapP E (InL_try hn) rfl) (fun as has ha => ?_)
  refine P_bind (Env.mapP E (InL_try hn) rfl) (fun ms hms hm => ?_)
  refine P_ok (Kid_of (T_bwc' (b := .P) hq ?_ (T_nil (by lst))))
  have hms' : ms ≠ [] → T .G (as ++ [Prog.intersperse ms (.s " "), t " "]) .P := fun h =>
    T_kids ha (by decide) (by decide) (T_interNe hm h (by decide) (by decide) (T_tb (by decide) (by decide) (T_nil (by lst))))
  split
  · rename_i he
    rw [List.append_nil]
    have : as ≠ [] := by
      rcases E.mods n hn hk with h | h
      · exact mapR_ne has h
      · exact absurd (List.isEmpty_iff.1 he) (mapR_ne hms h)
    cases as with
    | nil => exact absurd rfl this
    | cons p ps =>
      refine T_kid (Kids_head ha) (by decide) ?_
      rw [← List.append_nil ps]
      exact T_kids (Kids_tail ha) (by decide) (by decide) (T_nil (by lst))
  · rename_i he
    exact hms' (fun h => he (by rw [h]; rfl))

theorem annotation_t (E : Env root n .I rec) (hn : In root n) (hq : Quiet n.id) : P (New.annotation rec n) (Kid .P) := by
  unfold New.annotation
  refine P_bind (Env.check E) (fun _ _ hk => ?_)
  have h : P (optR (n.tryCByN "arguments") (rec .annotationArgumentList)) (fun o => Seg (opt o)) := by
    unfold optR
    split
    · exact P_ok (Seg_of (T_nil (by lst)))
    · rename_i l hl
      have h2 := E.args l (in_tryCByN hn hl)
      generalize hr : rec .annotationArgumentList l = r at h2
      cases r with
      | error e => exact P_err
      | ok p => exact P_ok (Seg_of (P_get (Q := fun p => T .I [p] .I) h2 rfl))
  refine P_bind h (fun o _ ho => ?_)
  refine P_bind (Env.cByN E hn) (fun _ hc' hc => ?_)
  refine P_bind (Env.nearP E _ _ (child_cByN hc') rfl rfl) (fun _ _ hv => ?_)
  refine P_ok (Kid_of (T_concat (T_bwcpI E hn (by decide) (T_tI (by decide) (by decide) (T_kid hv (by decide) (T_segL ho rfl (by decide)))) ?_)))
  rw [pst_quiet hq]
  exact T_nl (T_nil (by lst))

theorem annotationArgumentList_t (E : Env root n .I rec) (hn : In root n) (hq : Quiet n.id) : P (New.annotationArgumentList rec n) (fun p => T .I [p] .I) := by
  have key : ∀ {r : R Prog}, P r (Kid (pst n.id)) → P r (fun p => T .I [p] .I) := fun h => by
    rw [pst_quiet hq] at h
    exact P_mono h (fun _ h => T_kid h (by decide) (T_nil (by lst)))
  unfold New.annotationArgumentList
  split
  · exact P_ok (T_concat (T_nil (by lst)))
  · split
    all_goals refine key ?_; ntt E hn

theorem methodInvocation_t (E : Env root n .I rec) (hn : In root n) : P (New.methodInvocation rec n) (Kid (pst n.id)) := by
  unfold New.methodInvocation New.propertyNavigation
  ntt E hn

theorem loopBody_t (E : Env root n .I rec) {b : Loc} (hb : b ∈ n.children) : P (New.loopBody rec b) Seg := by
  unfold New.loopBody
  ntt E hb

/-- The semicolons of a `for` statement. -/
theorem semis_quiet (E : Env root n x rec) (hn : In root n) : ∀ {ps : List Punc},
    mapR Punc.new (n.children.filter (fun c => c.kind == ";")) = .ok ps → ∀ p ∈ ps, Quiet p.id := by
  have key : ∀ {xs : List Loc} {ps : List Punc}, (∀ l ∈ xs, l ∈ n.children ∧ l.kind = ";") → mapR Punc.new xs = .ok ps → ∀ p ∈ ps, Quiet p.id := by
    intro xs
    induction xs with
    | nil => intro ps _ h p hp; cases h; cases hp
    | cons l xs ih =>
      intro ps hx h p hp
      rw [mapR] at h
      split at h
      · cases h
      · rename_i b hb
        split at h
        · cases h
        · rename_i bs hbs
          cases h
          rcases List.mem_cons.1 hp with rfl | hp
          · have := hx l (by simp)
            unfold Punc.new at hb
            rw [this.2] at hb
            cases hb
            exact E.semi n hn l this.1 this.2
          · exact ih (fun y hy => hx y (by simp [hy])) hbs p hp
  intro ps h
  exact key (fun l hl => ⟨(List.mem_filter.1 hl).1, eq_of_beq (List.mem_filter.1 hl).2⟩) h

theorem forStatement_t (E : Env root n .I rec) (hn : In root n) : P (New.forStatement rec n) (Kid (pst n.id)) := by
  unfold New.forStatement
  refine P_bind (Env.check E) (fun _ _ _ => ?_)
  refine P_bind (Env.nearO E (fun _ h => child_tryCByN h) rfl rfl) (fun i _ hi => ?_)
  refine P_bind (Env.optP E (InO_N hn) rfl) (fun c _ hc => ?_)
  refine P_bind (Env.optP E (InO_N hn) rfl) (fun u _ hu => ?_)
  refine P_bind (Q := fun ps => ∀ p ∈ ps, Quiet p.id) (P_of (fun ps hps => semis_quiet E hn hps)) (fun semis _ hsm => ?_)
  refine P_bind (Env.cByN E hn) (fun b hb' hb => ?_)
  refine P_bind (loopBody_t E (child_cByN hb')) (fun b _ hb => ?_)
  refine P_bind (Q := fun ps => ∃ p q u, ps = [p, q, u] ∧ Kid .I p ∧ Kid .I q ∧ T .P [u] .F) ?_ (fun ps _ hps => ?_)
  · simp only [endOf] at hi hc hu
    have hp : ∀ s ∈ semis, Kid .I (.punct s) := fun s h => Kid_of (T_punct (hsm s h) (by decide) (T_nil (by lst)))
    have hs : ∀ {p}, Kid .I p → Kid .I (.concat [t " ", p]) := fun h =>
      Kid_of (T_concat (T_tb (by decide) (by decide) (T_kid h (by decide) (T_nil (by lst)))))
    have hu' : ∀ p q x, Kid .I p → Kid .I q → x = (match u with | some u => .concat [t " ", u] | none => nil) →
        ∃ p' q' u', [p, q, x] = [p', q', u'] ∧ Kid .I p' ∧ Kid .I q' ∧ T .P [u'] .F := by
      intro p q x h1 h2 hx
      refine ⟨p, q, x, rfl, h1, h2, ?_⟩
      subst hx
      cases u with
      | none => exact T_nilp (by decide) (T_nil (by lst))
      | some u => exact T_kid (hs (OptK_get hu)) (by decide) (T_nil (by lst))
    split
    · exact P_ok (hu' _ _ _ (OptK_get hi) (hs (OptK_get hc)) (by cases u <;> rfl))
    · exact P_ok (hu' _ _ _ (OptK_get hi) (hp _ (by simp)) (by cases u <;> rfl))
    · exact P_ok (hu' _ _ _ (hp _ (by simp)) (hs (OptK_get hc)) (by cases u <;> rfl))
    · exact P_ok (hu' _ _ _ (hp _ (by simp)) (hp _ (by simp)) (by cases u <;> rfl))
    · exact P_err
  · obtain ⟨p, q, u, rfl, h1, h2, h3⟩ := hps
    refine P_ok (Kid_of (T_bwcpI E hn (by decide) (T_tI (by decide) (by decide) (T_group ?_)) (T_nil (by lst))))
    show T .I (.concat [t "(", .indent .maybeline, .indent (.concat [p, .maybeline, q, .maybeline, u]), .maybeline, t ")"] :: b) .I
    refine T_concat (T_tI (by decide) (by decide) (T_indent (T_maybe (T_indent (T_concat ?_)))))
    refine T_kid h1 (by decide) (T_maybe (T_kid h2 (by decide) (T_maybe (T_cons (b := .F) h3 ?_))))
    exact T_maybe (T_tI (by decide) (by decide) (T_segL hb rfl (by decide)))

theorem enhancedForStatement_t (E : Env root n .I rec) (hn : In root n) : P (New.enhancedForStatement rec n) (Kid (pst n.id)) := by
  unfold New.enhancedForStatement New.loopBody
  ntt E hn

theorem constructorBody_t (E : Env root n .P rec) (hn : In root n) : P (New.constructorBody cfg rec n) (Kid (pst n.id)) := by
  unfold New.constructorBody
  refine P_bind (Q := fun x => (∀ m, x.1 = some m → Kid .P m.2) ∧ Mems .P x.2) ?_ (fun x _ hx => ?_)
  · have hv : ∀ l ∈ n.childrenVec, l ∈ n.children := fun _ h => child_vec h
    split
    · exact P_ok ⟨nofun, Mems_nil⟩
    · rename_i c cs hcs
      rw [hcs] at hv
      split
      · refine P_bind (Env.member E (hv _ (by simp)) rfl) (fun m _ hm => ?_)
        refine P_bind (Env.members E (fun l hl => hv l (by simp [hl])) rfl) (fun ms _ hms => ?_)
        exact P_ok ⟨fun _ h => by cases h; exact hm, hms⟩
      · refine P_bind (Env.members E hv rfl) (fun ms _ hms => ?_)
        exact P_ok ⟨nofun, hms⟩
  · obtain ⟨inv, ss⟩ := x
    obtain ⟨h1, h2⟩ := hx
    refine P_ok (Kid_of (T_concat (T_pre (by decide) (T_ifDangling (T_concat ?_)))))
    refine (congrArg (T .G · (pst n.id)) (List.append_nil _)).mpr (T_end (e := .I) ?_ zero_le)
    have tail : ∀ {ms : List (Bool × Prog)} {a : St}, Mems .P ms → a ≠ .bad → a ≠ .S → a ≠ .G → T a [.indent (intersperseBody ms), .nl, t "}"] .I := by
      intro ms a hm ha hs hg
      refine T_indent (T_interBodyI hm ha ?_)
      cases a <;> first | exact absurd rfl ha | exact absurd rfl hs | exact absurd rfl hg | exact T_nl (T_tI (by decide) (by decide) (T_nil (by lst)))
    have tail' : ∀ {ms : List (Bool × Prog)}, Mems .P ms → ms ≠ [] → T .S [.indent (intersperseBody ms), .nl, t "}"] .I := by
      intro ms hm hne
      exact T_indent (T_interBodyNe hm hne (by decide) (T_nl (T_tI (by decide) (by decide) (T_nil (by lst)))))
    dsimp only at h1 h2
    cases inv with
    | none =>
      cases ss with
      | nil => exact T_concat (T_tI (by decide) (by decide) (T_nl (T_tI (by decide) (by decide) (T_nil (by lst)))))
      | cons m ms => exact T_tI (by decide) (by decide) (T_indent (T_nl (tail h2 (by decide) (by decide) (by decide))))
    | some m =>
      obtain ⟨tr, c⟩ := m
      have h1 := h1 _ rfl
      cases ss with
      | nil => exact T_tI (by decide) (by decide) (T_indent (T_concat (T_nl (T_kid h1 (by decide) (tail h2 (by decide) (by decide) (by decide))))))
      | cons m ms =>
        refine T_tI (by decide) (by decide) (T_indent (T_concat (T_nl (T_kid h1 (by decide) ?_))))
        cases tr
        · exact T_indent (T_sep (tail' h2 (by simp)))
        · exact T_sep (tail' h2 (by simp))

theorem constructInvocation_t (E : Env root n .I rec) (hn : In root n) : P (New.constructInvocation rec n) (Kid (pst n.id)) := by
  unfold New.constructInvocation
  refine P_bind (Env.optP E (InO_N hn) rfl) (fun i _ hi => ?_)
  refine P_bind (Env.optP E (InO_K hn) rfl) (fun c _ hc => ?_)
  refine P_bind (P_opt (e := .I) (fun x _ => ?_)) (fun o _ ho => ?_)
  · split
    · exact P_ok (Kid_of (T_tI (by decide) (by decide) (T_nil (by lst))))
    · split
      · exact P_ok (Kid_of (T_tI (by decide) (by decide) (T_nil (by lst))))
      · exact P_err
  ntt E hn

theorem typeParameter_t (E : Env root n .I rec) (hn : In root n) : P (New.typeParameter rec n) (Kid (pst n.id)) := by
  unfold New.typeParameter
  ntt E hn

theorem fieldAccess_t (E : Env root n .I rec) (hn : In root n) : P (New.fieldAccess rec n) (Kid (pst n.id)) := by
  unfold New.fieldAccess New.fieldNavigation
  ntt E hn

theorem tryStatement_t (E : Env root n .I rec) (hn : In root n) : P (New.tryStatement rec n) (Kid (pst n.id)) := by
  unfold New.tryStatement
  refine P_bind (Env.check E) (fun _ _ _ => ?_)
  refine P_bind (Q := Seg) ?_ (fun i _ hi => ?_)
  · split
    · rename_i f hf
      refine P_bind (Env.mapP E (InL_try hn) rfl) (fun cs _ hc => ?_)
      refine P_bind (Env.recP E _ _ (in_tryCByK hn hf) rfl) (fun g _ hg => ?_)
      exact P_ok (Seg_of (T_concat (T_kidsI hc (by decide) (T_kid hg (by decide) (T_nil (by lst))))))
    · refine P_bind (Env.csByK E hn) (fun ls _ hl => ?_)
      refine P_bind (Env.mapP E hl.1 rfl) (fun cs _ hc => ?_)
      exact P_ok (Seg_of (T_concat (T_kidsI hc (by decide) (T_nil (by lst)))))
  · refine P_bind (Env.cByN E hn) (fun b hb' hb => ?_)
    refine P_bind (Env.nearP E _ _ (child_cByN hb') rfl rfl) (fun b _ hb => ?_)
    refine P_ok (Kid_of (T_bwcpI E hn (by decide) (T_tRI (by decide) (by decide) (T_kid hb (by decide) (T_concat ?_))) (T_nil (by lst))))
    exact T_seg hi rfl (T_nil (by lst))

theorem breakStatement_t (E : Env root n .I rec) (hn : In root n) : P (New.breakStatement rec n) (Kid (pst n.id)) := by
  unfold New.breakStatement New.jump
  ntt E hn

theorem continueStatement_t (E : Env root n .I rec) (hn : In root n) : P (New.continueStatement rec n) (Kid (pst n.id)) := by
  unfold New.continueStatement New.jump
  ntt E hn

theorem whenSObjectType_t (E : Env root n .I rec) (hn : In root n) : P (New.whenSObjectType rec n) (Kid (pst n.id)) := by
  unfold New.whenSObjectType
  refine P_bind (Env.mapP E (InL_filter (InL_vec hn)) rfl) (fun cs _ hc => ?_)
  split
  · rename_i ty i h1 h2
    have hi := E.text i (InL_last (InL_filter (InL_vec hn)) h2)
    have ht := Kid_last hc h1
    exact P_ok (Kid_of (T_bwcpI E hn (by decide) (T_kid ht (by decide) (T_tb (by decide) (by decide) (T_valI hi (by decide) (T_nil (by lst))))) (T_nil (by lst))))
  · exact P_err

theorem versionExpression_t (E : Env root n .I rec) (hn : In root n) : P (New.versionExpression rec n) (Kid (pst n.id)) := by
  unfold New.versionExpression
  refine P_bind (Env.check E) (fun _ _ _ => ?_)
  refine P_bind (Env.nearO E (fun _ h => child_tryCByN h) rfl rfl) (fun o _ ho => ?_)
  refine P_ok (Kid_of (T_bwcpI E hn (by decide) (T_tI (by decide) (by decide) ?_) (T_nil (by lst))))
  cases o with
  | none => exact T_tI (by decide) (by decide) (T_nil (by lst))
  | some p => exact T_kid (OptK_get ho) (by decide) (T_nil (by lst))

theorem sObjectReturn_t (E : Env root n .I rec) (hn : In root n) : P (New.sObjectReturn rec n) (Kid (pst n.id)) := by
  unfold New.sObjectReturn
  refine P_bind (Env.check E) (fun _ _ _ => ?_)
  refine P_bind (Q := Seg) ?_ (fun i _ hi => ?_)
  · split
    · exact P_ok (Seg_of (T_nil (by lst)))
    · rename_i s hs
      have hk := kind_tryCByK hs
      have hi := in_tryCByK hn hs
      refine P_bind (Env.mapP E (InL_vec hi) rfl) (fun fs hfs hf => ?_)
      have hne := mapR_ne hfs (E.full s hi (by rw [hk]; decide))
      have hl : Kid .I (Prog.intersperse fs (.after .softline)) := Kid_of (T_interNe hf hne (by decide) (by decide) (T_nil (by lst)))
      ntt E hn
      exact T_nil (E.kids s (child_tryCByK hs))
  · ntt E hn

theorem mapKeyInitializer_t (E : Env root n .I rec) (hn : In root n) : P (New.mapKeyInitializer rec n) (Kid (pst n.id)) := by
  unfold New.mapKeyInitializer
  refine P_bind (Env.check E) (fun _ _ _ => ?_)
  have hv := InL_vec hn
  split
  · rename_i a b hab
    rw [hab] at hv
    have ha := InL_head hv
    have hb := InL_head (InL_tail hv)
    ntt E hn
  · exact P_err

theorem groupByClause_t (E : Env root n .I rec) (hn : In root n) : P (New.groupByClause rec n) (Kid (pst n.id)) := by
  unfold New.groupByClause
  refine P_bind (Env.check E) (fun _ _ _ => ?_)
  split
  · refine P_bind (Env.dispatchs E (e := .I) (InL_filter (InL_vec hn)) (by decide)) (fun es _ he => ?_)
    refine P_bind (Env.mapP E (InL_filter (InL_vec hn)) rfl) (fun hs _ hh => ?_)
    refine P_ok (Kid_of (T_bwcpI E hn (by decide) (T_tRI (by decide) (by decide) (T_interI he (by decide) (by decide) ?_)) (T_nil (by lst))))
    split
    · rename_i h hl
      exact T_soft (T_kid (Kid_last hh hl) (by decide) (T_nil (by lst)))
    · exact T_nil (by lst)
  · exact P_err

theorem withDataCatFilter_t (E : Env root n .I rec) (hn : In root n) : P (New.withDataCatFilter rec n) (Kid (pst n.id)) := by
  unfold New.withDataCatFilter
  refine P_bind (Env.check E) (fun _ _ _ => ?_)
  refine P_bind (Env.csByK E hn) (fun ls hls hl => ?_)
  have hl : ∀ l ∈ ls, l ∈ n.children := fun _ h => child_csByK hls h
  split
  · refine P_bind (Env.nearP E _ _ (hl _ (by simp)) rfl rfl) (fun a _ ha => ?_)
    refine P_bind (Env.nearL E (fun l h => hl l (by simp [h])) rfl rfl) (fun ds _ hd => ?_)
    refine P_bind (Env.cByK E hn) (fun b hb' hb => ?_)
    refine P_bind (Env.nearP E _ _ (child_cByK hb') rfl rfl) (fun b _ hb => ?_)
    refine P_ok (Kid_of (T_bwcpI E hn (by decide) (T_kid ha (by decide) (T_tb (by decide) (by decide) (T_kid hb (by decide) (T_tb (by decide) (by decide) ?_)))) (T_nil (by lst))))
    split
    · exact T_kid (Kids_head hd) (by decide) (T_nil (by lst))
    · exact T_parenI hd (by decide) (T_nil (by lst))
  · exact P_err

theorem conditionExpression_t {m : Loc} (E : Env root m x rec) (hn : In root n) {o : Option String} : P (New.conditionExpression rec o n) (Kid .I) := by
  unfold New.conditionExpression
  ntt E hn

theorem andExpression_t (E : Env root n .I rec) (hn : In root n) : P (New.andExpression rec n) (Kid (pst n.id)) := by
  unfold New.andExpression
  refine P_bind (Env.check E) (fun _ _ _ => ?_)
  refine P_bind (P_map (e := .I) (fun x hx => conditionExpression_t E (in_vec hn hx))) (fun _ _ _ => ?_)
  ntt E hn

theorem orExpression_t (E : Env root n .I rec) (hn : In root n) : P (New.orExpression rec n) (Kid (pst n.id)) := by
  unfold New.orExpression
  refine P_bind (Env.check E) (fun _ _ _ => ?_)
  refine P_bind (P_map (e := .I) (fun x hx => conditionExpression_t E (in_vec hn hx))) (fun _ _ _ => ?_)
  ntt E hn

theorem notExpression_t (E : Env root n .I rec) (hn : In root n) : P (New.notExpression rec n) (Kid (pst n.id)) := by
  unfold New.notExpression
  refine P_bind (Env.check E) (fun _ _ _ => ?_)
  refine P_bind (Env.firstC E hn) (fun c _ hc => ?_)
  refine P_bind (conditionExpression_t E hc) (fun _ _ _ => ?_)
  ntt E hn

theorem geoLocationTypeVariant_t (E : Env root n .I rec) (hn : In root n) : P (New.geoLocationTypeVariant rec n) (Kid (pst n.id)) := by
  unfold New.geoLocationTypeVariant
  refine P_bind (Env.firstC E hn) (fun c _ hc => ?_)
  split
  · ntt E hn
  split
  · ntt E hn
  split
  · refine P_bind (Env.csByK E hn) (fun ls hls hl => ?_)
    have hl : ∀ l ∈ ls, l ∈ n.children := fun _ h => child_csByK hls h
    split
    · have h1 := hl _ (List.mem_cons_self ..)
      have h2 := hl _ (List.mem_cons_of_mem _ (List.mem_cons_self ..))
      ntt E hn
    · exact P_err
  · exact P_err

theorem ifStatement_t (E : Env root n .I rec) (hn : In root n) : P (New.ifStatement rec n) (Kid (pst n.id)) := by
  unfold New.ifStatement
  refine P_bind (Env.check E) (fun _ _ _ => ?_)
  refine P_bind (Env.cByN E hn) (fun c _ hc => ?_)
  refine P_bind (Env.recP E _ _ hc rfl) (fun c _ hc => ?_)
  refine P_bind (Env.cByN E hn) (fun d hd' hd => ?_)
  refine P_bind (Env.nearP E _ _ (child_cByN hd') rfl rfl) (fun s _ hs => ?_)
  have first : ∀ {qs e}, T .I qs e → T .G (([t "if ", c] ++ (if d.kind = "block" then [t " ", s] else [.indent .nl, .indent s])) ++ qs) e := by
    intro qs e h
    refine T_tI (by decide) (by decide) (T_kid hc (by decide) ?_)
    split
    · exact T_tb (by decide) (by decide) (T_kid hs (by decide) h)
    · exact T_indent (T_nl (T_indent (T_kid hs (by decide) h)))
  dsimp only
  split
  · refine P_ok (Kid_of (T_bwcpI E hn (by decide) ?_ (T_nil (by lst))))
    have := first (T_nil (e := .I) (by decide))
    rwa [List.append_nil] at this
  · rename_i alt halt
    split
    · exact P_err
    · rename_i l hl
      refine P_bind (Env.nearP E _ _ (List.mem_of_find?_eq_some hl) rfl rfl) (fun l _ hl => ?_)
      refine P_bind (Env.nearP E _ _ (child_tryCByN halt) rfl rfl) (fun r _ hr => ?_)
      refine P_ok (Kid_of (T_bwcpI E hn (by decide) ?_ (T_nil (by lst))))
      rw [List.append_assoc]
      refine first ?_
      split
      · exact T_tb (by decide) (by decide) (T_kid hl (by decide) (T_tb (by decide) (by decide) (T_kid hr (by decide) (T_nil (by lst)))))
      · refine T_nl (T_kid hl (by decide) ?_)
        split
        · exact T_tb (by decide) (by decide) (T_kid hr (by decide) (T_nil (by lst)))
        · exact T_indent (T_nl (T_kid hr (by decide) (T_nil (by lst))))

end Afmt.Notes
