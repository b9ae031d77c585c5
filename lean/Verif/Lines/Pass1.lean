import Verif.Ast.Knot
import Verif.Lines.Tac

/-!
# Line breaks of the programs of the constructors: by hand
-/

set_option linter.unusedVariables false
set_option linter.unusedSimpArgs false

namespace Afmt.Lines
open Afmt.Prog
set_option maxRecDepth 4000
variable {root : Node} {rec : Rec} {n : Loc} {cfg : Cfg}

theorem root_t (E : Env root rec) (hn : In root n) : P (New.root cfg rec n) (fun p => T .I [p] .P) := by
  unfold New.root
  refine P_bind (Env.check E) (fun _ _ _ => ?_)
  refine P_bind (Env.members E (InL_vec hn) rfl) (fun ms _ hm => ?_)
  refine P_ok (T_ifDangling (T_concat ?_))
  exact T_interBodyI hm (by decide) (T_nl (T_nil (by decide)))

theorem modifiers_t (E : Env root rec) (hn : In root n) : P (New.modifiers rec n) (Kid .P) := by
  unfold New.modifiers
  refine P_bind (Env.check E) (fun _ _ hk => ?_)
  refine P_bind (Env.mapP E (InL_try hn) rfl) (fun as has ha => ?_)
  refine P_bind (Env.mapP E (InL_try hn) rfl) (fun ms hms hm => ?_)
  refine P_ok (Kid_of (T_bwc ?_))
  rw [List.append_nil]
  have hms' : ms ≠ [] → T .G (as ++ [Prog.intersperse ms (.s " "), t " "]) .P := fun h =>
    T_kids ha (by decide) (by decide) (T_interNe hm h (by decide) (by decide) (T_tb (by decide) (by decide) (T_nil (by decide))))
  split
  · rename_i he
    rw [List.append_nil]
    have : as ≠ [] := by
      rcases E.mods n hn hk with h | h
      · exact mapR_ne has h
      · exact absurd (List.isEmpty_iff.1 he) (mapR_ne hms h)
    cases as with
    | nil => exact absurd rfl this
    | cons p ps =>
      refine T_kid (Kids_head ha) (by decide) ?_
      rw [← List.append_nil ps]
      exact T_kids (Kids_tail ha) (by decide) (by decide) (T_nil (by decide))
  · rename_i he
    exact hms' (fun h => he (by rw [h]; rfl))

theorem annotation_t (E : Env root rec) (hn : In root n) : P (New.annotation rec n) (Kid .P) := by
  unfold New.annotation
  refine P_bind (Env.check E) (fun _ _ hk => ?_)
  have h : P (optR (n.tryCByN "arguments") (rec .annotationArgumentList)) (fun o => Seg (opt o)) := by
    unfold optR
    split
    · exact P_ok (Seg_of (T_nil (by decide)))
    · rename_i l hl
      have h2 := E.args l (in_tryCByN hn hl)
      generalize hr : rec .annotationArgumentList l = r at h2
      cases r with
      | error e => exact P_err
      | ok p => exact P_ok (Seg_of (P_get (Q := fun p => T .I [p] .I) h2 rfl))
  refine P_bind h (fun o _ ho => ?_)
  refine P_bind (Env.cByN E hn) (fun _ _ hc => ?_)
  refine P_bind (Env.recP E _ _ hc rfl) (fun _ _ hv => ?_)
  refine P_ok (Kid_of (T_concat (T_bwcpI (T_tI (by decide) (by decide) (T_kid hv (by decide) (T_segL ho rfl (by decide)))) ?_)))
  exact T_nl (T_nil (by decide))

theorem annotationArgumentList_t (E : Env root rec) (hn : In root n) : P (New.annotationArgumentList rec n) (fun p => T .I [p] .I) := by
  have key : ∀ {r : R Prog}, P r (Kid .I) → P r (fun p => T .I [p] .I) := fun h => P_mono h (fun _ h => T_kid h (by decide) (T_nil (by decide)))
  unfold New.annotationArgumentList
  split
  · exact P_ok (T_concat (T_nil (by decide)))
  · split
    all_goals refine key ?_; tt E hn

theorem methodInvocation_t (E : Env root rec) (hn : In root n) : P (New.methodInvocation rec n) (Kid .I) := by
  unfold New.methodInvocation New.propertyNavigation
  tt E hn

theorem loopBody_t (E : Env root rec) (hn : In root n) : P (New.loopBody rec n) Seg := by
  unfold New.loopBody
  tt E hn

theorem forStatement_t (E : Env root rec) (hn : In root n) : P (New.forStatement rec n) (Kid .I) := by
  unfold New.forStatement
  refine P_bind (Env.check E) (fun _ _ _ => ?_)
  refine P_bind (Env.optP E (InO_N hn) rfl) (fun i _ hi => ?_)
  refine P_bind (Env.optP E (InO_N hn) rfl) (fun c _ hc => ?_)
  refine P_bind (Env.optP E (InO_N hn) rfl) (fun u _ hu => ?_)
  refine P_bind (Q := fun _ => True) P_any (fun semis _ _ => ?_)
  refine P_bind (Env.cByN E hn) (fun b _ hb => ?_)
  refine P_bind (loopBody_t E hb) (fun b _ hb => ?_)
  refine P_bind (Q := fun ps => ∃ p q u, ps = [p, q, u] ∧ Kid .I p ∧ Kid .I q ∧ T .P [u] .F) ?_ (fun ps _ hps => ?_)
  · simp only [endOf] at hi hc hu
    have hp : ∀ s, Kid .I (.punct s) := fun s => Kid_of (T_punct (by decide) (T_nil (by decide)))
    have hs : ∀ {p}, Kid .I p → Kid .I (.concat [t " ", p]) := fun h =>
      Kid_of (T_concat (T_tb (by decide) (by decide) (T_kid h (by decide) (T_nil (by decide)))))
    have hu' : ∀ p q x, Kid .I p → Kid .I q → x = (match u with | some u => .concat [t " ", u] | none => nil) →
        ∃ p' q' u', [p, q, x] = [p', q', u'] ∧ Kid .I p' ∧ Kid .I q' ∧ T .P [u'] .F := by
      intro p q x h1 h2 hx
      refine ⟨p, q, x, rfl, h1, h2, ?_⟩
      subst hx
      cases u with
      | none => exact T_nilp (by decide) (T_nil (by decide))
      | some u => exact T_kid (hs (OptK_get hu)) (by decide) (T_nil (by decide))
    split
    · exact P_ok (hu' _ _ _ (OptK_get hi) (hs (OptK_get hc)) (by cases u <;> rfl))
    · exact P_ok (hu' _ _ _ (OptK_get hi) (hp _) (by cases u <;> rfl))
    · exact P_ok (hu' _ _ _ (hp _) (hs (OptK_get hc)) (by cases u <;> rfl))
    · exact P_ok (hu' _ _ _ (hp _) (hp _) (by cases u <;> rfl))
    · exact P_err
  · obtain ⟨p, q, u, rfl, h1, h2, h3⟩ := hps
    refine P_ok (Kid_of (T_bwcpI (T_tI (by decide) (by decide) (T_group ?_)) (T_nil (by decide))))
    show T .I (.concat [t "(", .indent .maybeline, .indent (.concat [p, .maybeline, q, .maybeline, u]), .maybeline, t ")"] :: b) .I
    refine T_concat (T_tI (by decide) (by decide) (T_indent (T_maybe (T_indent (T_concat ?_)))))
    refine T_kid h1 (by decide) (T_maybe (T_kid h2 (by decide) (T_maybe (T_cons (b := .F) h3 ?_))))
    exact T_maybe (T_tI (by decide) (by decide) (T_segL hb rfl (by decide)))

theorem enhancedForStatement_t (E : Env root rec) (hn : In root n) : P (New.enhancedForStatement rec n) (Kid .I) := by
  unfold New.enhancedForStatement New.loopBody
  tt E hn

theorem constructorBody_t (E : Env root rec) (hn : In root n) : P (New.constructorBody cfg rec n) (Kid .I) := by
  unfold New.constructorBody
  refine P_bind (Q := fun x => (∀ m, x.1 = some m → Kid .I m.2) ∧ Mems .I x.2) ?_ (fun x _ hx => ?_)
  · have hv := InL_vec hn
    split
    · exact P_ok ⟨nofun, Mems_nil⟩
    · rename_i c cs hcs
      rw [hcs] at hv
      split
      · refine P_bind (Env.member E (InL_head hv) rfl) (fun m _ hm => ?_)
        refine P_bind (Env.members E (InL_tail hv) rfl) (fun ms _ hms => ?_)
        exact P_ok ⟨fun _ h => by cases h; exact hm, hms⟩
      · refine P_bind (Env.members E hv rfl) (fun ms _ hms => ?_)
        exact P_ok ⟨nofun, hms⟩
  · obtain ⟨inv, ss⟩ := x
    obtain ⟨h1, h2⟩ := hx
    refine P_ok (Kid_of (T_concat (T_pre (T_ifDangling (T_concat ?_)))))
    refine (congrArg (T .G · .I) (List.append_nil _)).mpr ?_
    have tail : ∀ {ms : List (Bool × Prog)} {a : St}, Mems .I ms → a ≠ .bad → a ≠ .S → a ≠ .G → T a [.indent (intersperseBody ms), .nl, t "}"] .I := by
      intro ms a hm ha hs hg
      refine T_indent (T_interBodyI hm ha ?_)
      cases a <;> first | exact absurd rfl ha | exact absurd rfl hs | exact absurd rfl hg | exact T_nl (T_tI (by decide) (by decide) (T_nil (by decide)))
    have tail' : ∀ {ms : List (Bool × Prog)}, Mems .I ms → ms ≠ [] → T .S [.indent (intersperseBody ms), .nl, t "}"] .I := by
      intro ms hm hne
      exact T_indent (T_interBodyNe hm hne (by decide) (T_nl (T_tI (by decide) (by decide) (T_nil (by decide)))))
    dsimp only at h1 h2
    cases inv with
    | none =>
      cases ss with
      | nil => exact T_concat (T_tI (by decide) (by decide) (T_nl (T_tI (by decide) (by decide) (T_nil (by decide)))))
      | cons m ms => exact T_tI (by decide) (by decide) (T_indent (T_nl (tail h2 (by decide) (by decide) (by decide))))
    | some m =>
      obtain ⟨tr, c⟩ := m
      have h1 := h1 _ rfl
      cases ss with
      | nil => exact T_tI (by decide) (by decide) (T_indent (T_concat (T_nl (T_kid h1 (by decide) (tail h2 (by decide) (by decide) (by decide))))))
      | cons m ms =>
        refine T_tI (by decide) (by decide) (T_indent (T_concat (T_nl (T_kid h1 (by decide) ?_))))
        cases tr
        · exact T_indent (T_sep (tail' h2 (by simp)))
        · exact T_sep (tail' h2 (by simp))

theorem constructInvocation_t (E : Env root rec) (hn : In root n) : P (New.constructInvocation rec n) (Kid .I) := by
  unfold New.constructInvocation
  refine P_bind (Env.optP E (InO_N hn) rfl) (fun i _ hi => ?_)
  refine P_bind (Env.optP E (InO_K hn) rfl) (fun c _ hc => ?_)
  refine P_bind (P_opt (e := .I) (fun x _ => ?_)) (fun o _ ho => ?_)
  · split
    · exact P_ok (Kid_of (T_tI (by decide) (by decide) (T_nil (by decide))))
    · split
      · exact P_ok (Kid_of (T_tI (by decide) (by decide) (T_nil (by decide))))
      · exact P_err
  tt E hn

theorem typeParameter_t (E : Env root rec) (hn : In root n) : P (New.typeParameter rec n) (Kid .I) := by
  unfold New.typeParameter
  tt E hn

theorem fieldAccess_t (E : Env root rec) (hn : In root n) : P (New.fieldAccess rec n) (Kid .I) := by
  unfold New.fieldAccess New.fieldNavigation
  tt E hn

theorem tryStatement_t (E : Env root rec) (hn : In root n) : P (New.tryStatement rec n) (Kid .I) := by
  unfold New.tryStatement
  refine P_bind (Env.check E) (fun _ _ _ => ?_)
  refine P_bind (Q := Seg) ?_ (fun i _ hi => ?_)
  · split
    · rename_i f hf
      refine P_bind (Env.mapP E (InL_try hn) rfl) (fun cs _ hc => ?_)
      refine P_bind (Env.recP E _ _ (in_tryCByK hn hf) rfl) (fun g _ hg => ?_)
      exact P_ok (Seg_of (T_concat (T_kidsI hc (by decide) (T_kid hg (by decide) (T_nil (by decide))))))
    · refine P_bind (Env.csByK E hn) (fun ls _ hl => ?_)
      refine P_bind (Env.mapP E hl.1 rfl) (fun cs _ hc => ?_)
      exact P_ok (Seg_of (T_concat (T_kidsI hc (by decide) (T_nil (by decide)))))
  · refine P_bind (Env.cByN E hn) (fun b _ hb => ?_)
    refine P_bind (Env.recP E _ _ hb rfl) (fun b _ hb => ?_)
    refine P_ok (Kid_of (T_bwcpI (T_tRI (by decide) (by decide) (T_kid hb (by decide) (T_concat ?_))) (T_nil (by decide))))
    exact T_seg hi rfl (T_nil (by decide))

theorem breakStatement_t (E : Env root rec) (hn : In root n) : P (New.breakStatement rec n) (Kid .I) := by
  unfold New.breakStatement New.jump
  tt E hn

theorem continueStatement_t (E : Env root rec) (hn : In root n) : P (New.continueStatement rec n) (Kid .I) := by
  unfold New.continueStatement New.jump
  tt E hn

theorem whenSObjectType_t (E : Env root rec) (hn : In root n) : P (New.whenSObjectType rec n) (Kid .I) := by
  unfold New.whenSObjectType
  refine P_bind (Env.mapP E (InL_filter (InL_vec hn)) rfl) (fun cs _ hc => ?_)
  split
  · rename_i ty i h1 h2
    have hi := E.text i (InL_last (InL_filter (InL_vec hn)) h2)
    have ht := Kid_last hc h1
    exact P_ok (Kid_of (T_bwcpI (T_kid ht (by decide) (T_tb (by decide) (by decide) (T_valI hi (by decide) (T_nil (by decide))))) (T_nil (by decide))))
  · exact P_err

theorem versionExpression_t (E : Env root rec) (hn : In root n) : P (New.versionExpression rec n) (Kid .I) := by
  unfold New.versionExpression
  refine P_bind (Env.check E) (fun _ _ _ => ?_)
  refine P_bind (Env.optP E (InO_N hn) rfl) (fun o _ ho => ?_)
  refine P_ok (Kid_of (T_bwcpI (T_tI (by decide) (by decide) ?_) (T_nil (by decide))))
  cases o with
  | none => exact T_tI (by decide) (by decide) (T_nil (by decide))
  | some p => exact T_kid (OptK_get ho) (by decide) (T_nil (by decide))

theorem sObjectReturn_t (E : Env root rec) (hn : In root n) : P (New.sObjectReturn rec n) (Kid .I) := by
  unfold New.sObjectReturn
  refine P_bind (Env.check E) (fun _ _ _ => ?_)
  refine P_bind (Q := Seg) ?_ (fun i _ hi => ?_)
  · split
    · exact P_ok (Seg_of (T_nil (by decide)))
    · rename_i s hs
      have hk := kind_tryCByK hs
      have hi := in_tryCByK hn hs
      refine P_bind (Env.mapP E (InL_vec hi) rfl) (fun fs hfs hf => ?_)
      have hne := mapR_ne hfs (E.full s hi (by rw [hk]; decide))
      have hl : Kid .I (Prog.intersperse fs (.after .softline)) := Kid_of (T_interNe hf hne (by decide) (by decide) (T_nil (by decide)))
      tt E hn
  · tt E hn

theorem mapKeyInitializer_t (E : Env root rec) (hn : In root n) : P (New.mapKeyInitializer rec n) (Kid .I) := by
  unfold New.mapKeyInitializer
  refine P_bind (Env.check E) (fun _ _ _ => ?_)
  have hv := InL_vec hn
  split
  · rename_i a b hab
    rw [hab] at hv
    have ha := InL_head hv
    have hb := InL_head (InL_tail hv)
    tt E hn
  · exact P_err

theorem groupByClause_t (E : Env root rec) (hn : In root n) : P (New.groupByClause rec n) (Kid .I) := by
  unfold New.groupByClause
  refine P_bind (Env.check E) (fun _ _ _ => ?_)
  split
  · refine P_bind (Env.dispatchs E (e := .I) (InL_filter (InL_vec hn)) (by decide)) (fun es _ he => ?_)
    refine P_bind (Env.mapP E (InL_filter (InL_vec hn)) rfl) (fun hs _ hh => ?_)
    refine P_ok (Kid_of (T_bwcpI (T_tRI (by decide) (by decide) (T_interI he (by decide) (by decide) ?_)) (T_nil (by decide))))
    split
    · rename_i h hl
      exact T_soft (T_kid (Kid_last hh hl) (by decide) (T_nil (by decide)))
    · exact T_nil (by decide)
  · exact P_err

theorem withDataCatFilter_t (E : Env root rec) (hn : In root n) : P (New.withDataCatFilter rec n) (Kid .I) := by
  unfold New.withDataCatFilter
  refine P_bind (Env.check E) (fun _ _ _ => ?_)
  refine P_bind (Env.csByK E hn) (fun ls _ hl => ?_)
  obtain ⟨hl, _⟩ := hl
  split
  · have h1 := InL_head hl
    have h2 := InL_tail hl
    refine P_bind (Env.recP E _ _ h1 rfl) (fun a _ ha => ?_)
    refine P_bind (Env.mapP E h2 rfl) (fun ds _ hd => ?_)
    refine P_bind (Env.cByK E hn) (fun b _ hb => ?_)
    refine P_bind (Env.recP E _ _ hb rfl) (fun b _ hb => ?_)
    refine P_ok (Kid_of (T_bwcpI (T_kid ha (by decide) (T_tb (by decide) (by decide) (T_kid hb (by decide) (T_tb (by decide) (by decide) ?_)))) (T_nil (by decide))))
    split
    · exact T_kid (Kids_head hd) (by decide) (T_nil (by decide))
    · exact T_parenI hd (by decide) (T_nil (by decide))
  · exact P_err

theorem conditionExpression_t (E : Env root rec) (hn : In root n) {o : Option String} : P (New.conditionExpression rec o n) (Kid .I) := by
  unfold New.conditionExpression
  tt E hn

theorem andExpression_t (E : Env root rec) (hn : In root n) : P (New.andExpression rec n) (Kid .I) := by
  unfold New.andExpression
  refine P_bind (Env.check E) (fun _ _ _ => ?_)
  refine P_bind (P_map (e := .I) (fun x hx => conditionExpression_t E (in_vec hn hx))) (fun _ _ _ => ?_)
  tt E hn

theorem orExpression_t (E : Env root rec) (hn : In root n) : P (New.orExpression rec n) (Kid .I) := by
  unfold New.orExpression
  refine P_bind (Env.check E) (fun _ _ _ => ?_)
  refine P_bind (P_map (e := .I) (fun x hx => conditionExpression_t E (in_vec hn hx))) (fun _ _ _ => ?_)
  tt E hn

theorem notExpression_t (E : Env root rec) (hn : In root n) : P (New.notExpression rec n) (Kid .I) := by
  unfold New.notExpression
  refine P_bind (Env.check E) (fun _ _ _ => ?_)
  refine P_bind (Env.firstC E hn) (fun c _ hc => ?_)
  refine P_bind (conditionExpression_t E hc) (fun _ _ _ => ?_)
  tt E hn

theorem geoLocationTypeVariant_t (E : Env root rec) (hn : In root n) : P (New.geoLocationTypeVariant rec n) (Kid .I) := by
  unfold New.geoLocationTypeVariant
  refine P_bind (Env.firstC E hn) (fun c _ hc => ?_)
  split
  · tt E hn
  split
  · tt E hn
  split
  · refine P_bind (Env.csByK E hn) (fun ls _ hl => ?_)
    obtain ⟨hl, _⟩ := hl
    split
    · have h1 := InL_head hl
      have h2 := InL_head (InL_tail hl)
      tt E hn
    · exact P_err
  · exact P_err

theorem ifStatement_t (E : Env root rec) (hn : In root n) : P (New.ifStatement rec n) (Kid .I) := by
  unfold New.ifStatement
  refine P_bind (Env.check E) (fun _ _ _ => ?_)
  refine P_bind (Env.cByN E hn) (fun c _ hc => ?_)
  refine P_bind (Env.recP E _ _ hc rfl) (fun c _ hc => ?_)
  refine P_bind (Env.cByN E hn) (fun d _ hd => ?_)
  refine P_bind (Env.recP E _ _ hd rfl) (fun s _ hs => ?_)
  have first : ∀ {qs e}, T .I qs e → T .G (([t "if ", c] ++ (if d.kind = "block" then [t " ", s] else [.indent .nl, .indent s])) ++ qs) e := by
    intro qs e h
    refine T_tI (by decide) (by decide) (T_kid hc (by decide) ?_)
    split
    · exact T_tb (by decide) (by decide) (T_kid hs (by decide) h)
    · exact T_indent (T_nl (T_indent (T_kid hs (by decide) h)))
  dsimp only
  split
  · refine P_ok (Kid_of (T_bwcpI ?_ (T_nil (by decide))))
    have := first (T_nil (e := .I) (by decide))
    rwa [List.append_nil] at this
  · rename_i alt halt
    split
    · exact P_err
    · rename_i l hl
      refine P_bind (Env.recP E _ _ (.child hn (List.mem_of_find?_eq_some hl)) rfl) (fun l _ hl => ?_)
      refine P_bind (Env.recP E _ _ (in_tryCByN hn halt) rfl) (fun r _ hr => ?_)
      refine P_ok (Kid_of (T_bwcpI ?_ (T_nil (by decide))))
      rw [List.append_assoc]
      refine first ?_
      split
      · exact T_tb (by decide) (by decide) (T_kid hl (by decide) (T_tb (by decide) (by decide) (T_kid hr (by decide) (T_nil (by decide)))))
      · refine T_nl (T_kid hl (by decide) ?_)
        split
        · exact T_tb (by decide) (by decide) (T_kid hr (by decide) (T_nil (by decide)))
        · exact T_indent (T_nl (T_kid hr (by decide) (T_nil (by decide))))

end Afmt.Lines
