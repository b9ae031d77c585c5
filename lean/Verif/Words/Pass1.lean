import Verif.Ast.Knot
import Verif.Words.Tac

/-!
# Word boundaries of the programs of the constructors: by hand
-/

set_option linter.unusedVariables false
set_option linter.unusedSimpArgs false

namespace Afmt.Words
open Afmt.Prog
open Afmt.Lines (P P_bind P_ok P_err P_any P_mono P_get InL_vec InL_named InL_try InL_filter InL_drop InL_tail InL_head InL_last InO_K InO_N)
set_option maxRecDepth 4000
variable {root : Node} {rec : Rec} {n : Loc} {cfg : Cfg}

theorem root_t (E : Env root rec) (hn : In root n) : P (New.root cfg rec n) (Kid .S .U) := by
  unfold New.root
  wtt E hn

theorem modifiers_t (E : Env root rec) (hn : In root n) : P (New.modifiers rec n) (Kid .S .S) := by
  unfold New.modifiers
  wtt E hn

theorem annotation_t (E : Env root rec) (hn : In root n) : P (New.annotation rec n) (Kid .S .S) := by
  unfold New.annotation
  wtt E hn

theorem annotationArgumentList_t (E : Env root rec) (hn : In root n) : P (New.annotationArgumentList rec n) (Kid .U .U) := by
  unfold New.annotationArgumentList
  wtt E hn

theorem methodInvocation_t (E : Env root rec) (hn : In root n) : P (New.methodInvocation rec n) (Kid .S .U) := by
  unfold New.methodInvocation
  have nav : ∀ o, In root o → P (New.propertyNavigation rec o) (Kid .U .S) := by
    intro o ho
    unfold New.propertyNavigation
    wtt E ho
  refine P_bind (Env.check E) (fun _ _ _ => ?_)
  refine P_bind (Env.cByN E hn) (fun _ _ hc => ?_)
  refine P_bind (Env.recP E _ _ hc rfl) (fun _ _ hx => ?_)
  refine P_bind (Env.cByN E hn) (fun _ _ ha => ?_)
  refine P_bind (Env.recP E _ _ ha rfl) (fun _ _ hy => ?_)
  split
  · wtt E hn
  · rename_i obj ho
    have ho := in_tryCByN hn ho
    refine P_bind (Env.recP E _ _ ho rfl) (fun _ _ hz => ?_)
    refine P_bind (nav _ ho) (fun _ _ hv => ?_)
    wtt E hn

theorem loopBody_t (E : Env root rec) (hn : In root n) : P (New.loopBody rec n) Seg := by
  unfold New.loopBody
  wtt E hn

theorem forStatement_t (E : Env root rec) (hn : In root n) : P (New.forStatement rec n) (Kid .S .U) := by
  unfold New.forStatement
  refine P_bind (Env.check E) (fun _ _ _ => ?_)
  refine P_bind (Env.optP E (InO_N hn) rfl) (fun i _ hi => ?_)
  refine P_bind (Env.optP E (InO_N hn) rfl) (fun c _ hc => ?_)
  refine P_bind (Env.optP E (InO_N hn) rfl) (fun u _ hu => ?_)
  refine P_bind (Q := fun _ => True) P_any (fun semis _ _ => ?_)
  refine P_bind (Env.cByN E hn) (fun b _ hb => ?_)
  refine P_bind (loopBody_t E hb) (fun b _ hb => ?_)
  simp only [startOf, endOf] at hi hc hu
  have hs : ∀ {p}, Kid .S .U p → Kid .U .U (.concat [t " ", p]) := fun h =>
    Kid_of (T_concat (T_tS (by decide) (T_kid h (by decide) (T_nil (by decide)))))
  have hp : ∀ s, Kid .U .U (.punct s) := fun s => Kid_of (T_punct (by decide) (T_nil (by decide)))
  have hu' : ∀ {u : Option Prog}, OptK .S .U u →
      Kid .U .U (match u with | some u => .concat [t " ", u] | none => nil) := by
    intro u hu
    cases u with
    | none => exact Kid_of (T_nilp (T_nil (by decide)))
    | some u => exact hs (OptK_get hu)
  refine P_bind (Q := fun ps => ∃ p q u, ps = [p, q, u] ∧ Kid .S .U p ∧ Kid .U .U q ∧ Kid .U .U u) ?_ (fun ps _ hps => ?_)
  · split
    · exact P_ok ⟨_, _, _, rfl, OptK_get hi, hs (OptK_get hc), hu' hu⟩
    · exact P_ok ⟨_, _, _, rfl, OptK_get hi, hp _, hu' hu⟩
    · exact P_ok ⟨_, _, _, rfl, Kid_le (hp _) (by decide) (by decide), hs (OptK_get hc), hu' hu⟩
    · exact P_ok ⟨_, _, _, rfl, Kid_le (hp _) (by decide) (by decide), hp _, hu' hu⟩
    · exact P_err
  · obtain ⟨p, q, u, rfl, h1, h2, h3⟩ := hps
    refine P_ok (Kid_of (T_bwcpU (by decide) (T_tS (by decide) (T_group ?_)) (T_nil (by decide))))
    show T .S (.concat [t "(", .indent .maybeline, .indent (.concat [p, .maybeline, q, .maybeline, u]), .maybeline, t ")"] :: b) .U
    refine T_concat (T_tS (by decide) (T_indent (T_maybe (T_indent (T_concat ?_)))))
    refine T_kid h1 (by decide) (T_maybe (T_kid h2 (by decide) (T_maybe (T_kid h3 (by decide) ?_))))
    exact T_maybe (T_tS (by decide) (T_segL hb (by decide) (by decide)))

theorem enhancedForStatement_t (E : Env root rec) (hn : In root n) : P (New.enhancedForStatement rec n) (Kid .S .U) := by
  unfold New.enhancedForStatement New.loopBody
  wtt E hn

theorem constructorBody_t (E : Env root rec) (hn : In root n) : P (New.constructorBody cfg rec n) (Kid .S .U) := by
  unfold New.constructorBody
  refine P_bind (Q := fun x => (∀ m, x.1 = some m → Kid .S .U m.2) ∧ Mems .S .U x.2) ?_ (fun x _ hx => ?_)
  · have hv := InL_vec hn
    split
    · exact P_ok ⟨nofun, Mems_nil⟩
    · rename_i c cs hcs
      rw [hcs] at hv
      split
      · rename_i hk
        refine P_bind (Env.member E (E.inv c (InL_head hv) hk)) (fun m _ hm => ?_)
        refine P_bind (Env.members E (InL_tail hv) rfl) (fun ms _ hms => ?_)
        exact P_ok ⟨fun _ h => by cases h; exact hm, hms⟩
      · refine P_bind (Env.members E hv rfl) (fun ms _ hms => ?_)
        exact P_ok ⟨nofun, hms⟩
  · obtain ⟨inv, ss⟩ := x
    obtain ⟨h1, h2⟩ := hx
    have tail : ∀ {ms : List (Bool × Prog)}, Mems .S .U ms → T .S [.indent (intersperseBody ms), .nl, t "}"] .S := fun hm =>
      T_indent (T_interBody hm (by decide) (T_nl (by decide) (T_tS (by decide) (T_nil (by decide)))))
    refine P_ok (Kid_of (T_concat (T_pre (T_ifDangling (b := .S) ?_ (T_concat_last ?_) (T_nil (by decide))))))
    · unfold danglingBracket
      repeat' wts
    dsimp only at h1 h2
    cases inv with
    | none =>
      cases ss with
      | nil => exact T_concat (T_tS (by decide) (T_nl (by decide) (T_tS (by decide) (T_nil (by decide)))))
      | cons m ms => exact T_tS (by decide) (T_indent (T_nl (by decide) (tail h2)))
    | some m =>
      obtain ⟨tr, c⟩ := m
      have h1 := h1 _ rfl
      cases ss with
      | nil =>
        refine T_tS (by decide) (T_indent (T_concat (T_nl (by decide) (T_kid h1 (by decide) ?_))))
        exact T_indent (T_txt (show tx .U [] ≤ .U by decide) (T_nl (by decide) (T_tS (by decide) (T_nil (by decide)))))
      | cons m ms =>
        refine T_tS (by decide) (T_indent (T_concat (T_nl (by decide) (T_kid h1 (by decide) ?_))))
        cases tr
        · exact T_indent (T_sep (by decide) (tail h2))
        · exact T_sep (by decide) (tail h2)

theorem constructInvocation_t (E : Env root rec) (hn : In root n) (hk : n.kind = "explicit_constructor_invocation") : P (New.constructInvocation rec n) (Kid .S .U) := by
  unfold New.constructInvocation
  rw [E.object n hn hk]
  refine P_bind (Q := fun o => o = none) (P_ok rfl) (fun i _ hi => ?_)
  subst hi
  refine P_bind (Env.optP E (InO_K hn) rfl) (fun c _ hc => ?_)
  refine P_bind (P_opt (s := .S) (e := .U) (fun x _ => ?_)) (fun o _ ho => ?_)
  · split
    · exact P_ok (Kid_of (T_tU (by decide) (T_nil (by decide))))
    · split
      · exact P_ok (Kid_of (T_tU (by decide) (T_nil (by decide))))
      · exact P_err
  simp only [opt, List.nil_append]
  wtt E hn

theorem typeParameter_t (E : Env root rec) (hn : In root n) : P (New.typeParameter rec n) (Kid .S .U) := by
  unfold New.typeParameter
  wtt E hn

theorem fieldAccess_t (E : Env root rec) (hn : In root n) : P (New.fieldAccess rec n) (Kid .S .U) := by
  unfold New.fieldAccess
  have nav : P (New.fieldNavigation rec n) (Kid .U .S) := by
    unfold New.fieldNavigation
    split
    · rename_i s hs
      exact Env.recP E _ _ (in_tryCByK hn hs) rfl
    · exact P_ok (Kid_of (T_tS (by decide) (T_nil (by decide))))
  refine P_bind (Env.check E) (fun _ _ _ => ?_)
  refine P_bind (Env.cByN E hn) (fun _ _ hc => ?_)
  refine P_bind (Env.recP E _ _ hc rfl) (fun _ _ hx => ?_)
  refine P_bind nav (fun _ _ hv => ?_)
  wtt E hn

theorem tryStatement_t (E : Env root rec) (hn : In root n) : P (New.tryStatement rec n) (Kid .S .U) := by
  unfold New.tryStatement
  refine P_bind (Env.check E) (fun _ _ _ => ?_)
  refine P_bind (Q := Seg) ?_ (fun i _ hi => ?_)
  · split
    · rename_i f hf
      refine P_bind (Env.mapP E (InL_try hn) rfl) (fun cs _ hc => ?_)
      refine P_bind (Env.recP E _ _ (in_tryCByK hn hf) rfl) (fun g _ hg => ?_)
      exact P_ok (Seg_of (T_concat (T_kidsU hc (by decide) (T_kid hg (by decide) (T_nil (by decide))))))
    · refine P_bind (Env.csByK E hn) (fun ls _ hl => ?_)
      refine P_bind (Env.mapP E hl rfl) (fun cs _ hc => ?_)
      exact P_ok (Seg_of (T_concat (T_kidsU hc (by decide) (T_nil (by decide)))))
  · refine P_bind (Env.cByN E hn) (fun b _ hb => ?_)
    refine P_bind (Env.recP E _ _ hb rfl) (fun b _ hb => ?_)
    refine P_ok (Kid_of (T_bwcpU (by decide) (T_tR (by decide) (T_kid hb (by decide) (T_concat ?_))) (T_nil (by decide))))
    exact T_seg hi (by decide) (T_nil (by decide))

theorem breakStatement_t (E : Env root rec) (hn : In root n) : P (New.breakStatement rec n) (Kid .S .U) := by
  unfold New.breakStatement New.jump
  wtt E hn

theorem continueStatement_t (E : Env root rec) (hn : In root n) : P (New.continueStatement rec n) (Kid .S .U) := by
  unfold New.continueStatement New.jump
  wtt E hn

theorem whenSObjectType_t (E : Env root rec) (hn : In root n) : P (New.whenSObjectType rec n) (Kid .S .U) := by
  unfold New.whenSObjectType
  refine P_bind (Env.mapP E (InL_filter (InL_vec hn)) rfl) (fun cs _ hc => ?_)
  split
  · rename_i ty i h1 h2
    have ht := Kid_last hc h1
    exact P_ok (Kid_of (T_bwcpU (by decide) (T_kid ht (by decide) (T_tS (by decide) (T_val (by decide) (T_nil (by decide))))) (T_nil (by decide))))
  · exact P_err

theorem versionExpression_t (E : Env root rec) (hn : In root n) : P (New.versionExpression rec n) (Kid .S .U) := by
  unfold New.versionExpression
  refine P_bind (Env.check E) (fun _ _ _ => ?_)
  refine P_bind (Env.optP E (InO_N hn) rfl) (fun o _ ho => ?_)
  refine P_ok (Kid_of (T_bwcpU (by decide) (T_tS (by decide) ?_) (T_nil (by decide))))
  cases o with
  | none => exact T_tU (by decide) (T_nil (by decide))
  | some p => exact T_kid (OptK_get ho) (by decide) (T_nil (by decide))

theorem sObjectReturn_t (E : Env root rec) (hn : In root n) : P (New.sObjectReturn rec n) (Kid .S .U) := by
  unfold New.sObjectReturn
  wtt E hn

theorem mapKeyInitializer_t (E : Env root rec) (hn : In root n) : P (New.mapKeyInitializer rec n) (Kid .S .U) := by
  unfold New.mapKeyInitializer
  refine P_bind (Env.check E) (fun _ _ _ => ?_)
  have hv := InL_vec hn
  split
  · rename_i a b hab
    rw [hab] at hv
    have ha := InL_head hv
    have hb := InL_head (InL_tail hv)
    wtt E hn
  · exact P_err

theorem groupByClause_t (E : Env root rec) (hn : In root n) : P (New.groupByClause rec n) (Kid .S .U) := by
  unfold New.groupByClause
  refine P_bind (Env.check E) (fun _ _ _ => ?_)
  split
  · refine P_bind (Env.dispatchs E (s := .S) (e := .U) (InL_filter (InL_vec hn)) (by decide)) (fun es _ he => ?_)
    refine P_bind (Env.mapP E (InL_filter (InL_vec hn)) rfl) (fun hs _ hh => ?_)
    refine P_ok (Kid_of (T_bwcpU (by decide) (T_tR (by decide) (T_inter he (by decide) (by decide) ?_)) (T_nil (by decide))))
    split
    · rename_i h hl
      exact T_soft (by decide) (T_kid (Kid_last hh hl) (by decide) (T_nil (by decide)))
    · exact T_nil (by decide)
  · exact P_err

theorem withDataCatFilter_t (E : Env root rec) (hn : In root n) : P (New.withDataCatFilter rec n) (Kid .S .U) := by
  unfold New.withDataCatFilter
  refine P_bind (Env.check E) (fun _ _ _ => ?_)
  refine P_bind (Env.csByK E hn) (fun ls _ hl => ?_)
  split
  · have h1 := InL_head hl
    have h2 := InL_tail hl
    refine P_bind (Env.recP E _ _ h1 rfl) (fun a _ ha => ?_)
    refine P_bind (Env.mapP E h2 rfl) (fun ds _ hd => ?_)
    refine P_bind (Env.cByK E hn) (fun b _ hb => ?_)
    refine P_bind (Env.recP E _ _ hb rfl) (fun b _ hb => ?_)
    refine P_ok (Kid_of (T_bwcpU (by decide) (T_kid ha (by decide) (T_tS (by decide) (T_kid hb (by decide) (T_tS (by decide) ?_)))) (T_nil (by decide))))
    split
    · exact T_kid (Kids_head hd) (by decide) (T_nil (by decide))
    · exact T_paren hd (by decide) (T_nil (by decide))
  · exact P_err

theorem conditionExpression_t (E : Env root rec) (hn : In root n) {o : Option String} : P (New.conditionExpression rec o n) (Kid .S .U) := by
  unfold New.conditionExpression
  wtt E hn

theorem andExpression_t (E : Env root rec) (hn : In root n) : P (New.andExpression rec n) (Kid .S .U) := by
  unfold New.andExpression
  refine P_bind (Env.check E) (fun _ _ _ => ?_)
  refine P_bind (P_map (s := .S) (e := .U) (fun x hx => conditionExpression_t E (in_vec hn hx))) (fun _ _ _ => ?_)
  wtt E hn

theorem orExpression_t (E : Env root rec) (hn : In root n) : P (New.orExpression rec n) (Kid .S .U) := by
  unfold New.orExpression
  refine P_bind (Env.check E) (fun _ _ _ => ?_)
  refine P_bind (P_map (s := .S) (e := .U) (fun x hx => conditionExpression_t E (in_vec hn hx))) (fun _ _ _ => ?_)
  wtt E hn

theorem notExpression_t (E : Env root rec) (hn : In root n) : P (New.notExpression rec n) (Kid .S .U) := by
  unfold New.notExpression
  refine P_bind (Env.check E) (fun _ _ _ => ?_)
  refine P_bind (Env.firstC E hn) (fun c _ hc => ?_)
  refine P_bind (conditionExpression_t E hc) (fun _ _ _ => ?_)
  wtt E hn

theorem geoLocationTypeVariant_t (E : Env root rec) (hn : In root n) : P (New.geoLocationTypeVariant rec n) (Kid .S .U) := by
  unfold New.geoLocationTypeVariant
  refine P_bind (Env.firstC E hn) (fun c _ hc => ?_)
  split
  · wtt E hn
  split
  · wtt E hn
  split
  · refine P_bind (Env.csByK E hn) (fun ls _ hl => ?_)
    split
    · have h1 := InL_head hl
      have h2 := InL_head (InL_tail hl)
      wtt E hn
    · exact P_err
  · exact P_err

theorem ifStatement_t (E : Env root rec) (hn : In root n) : P (New.ifStatement rec n) (Kid .S .U) := by
  unfold New.ifStatement
  refine P_bind (Env.check E) (fun _ _ _ => ?_)
  refine P_bind (Env.cByN E hn) (fun c _ hc => ?_)
  refine P_bind (Env.recP E _ _ hc rfl) (fun c _ hc => ?_)
  refine P_bind (Env.cByN E hn) (fun d _ hd => ?_)
  refine P_bind (Env.recP E _ _ hd rfl) (fun s _ hs => ?_)
  have first : ∀ {qs e}, T .U qs e → T .S (([t "if ", c] ++ (if d.kind = "block" then [t " ", s] else [.indent .nl, .indent s])) ++ qs) e := by
    intro qs e h
    refine T_tS (by decide) (T_kid hc (by decide) ?_)
    split
    · exact T_tS (by decide) (T_kid hs (by decide) h)
    · exact T_indent (T_nl (by decide) (T_indent (T_kid hs (by decide) h)))
  dsimp only
  split
  · refine P_ok (Kid_of (T_bwcpU (by decide) ?_ (T_nil (by decide))))
    have := first (T_nil (e := .U) (by decide))
    rwa [List.append_nil] at this
  · rename_i alt halt
    split
    · exact P_err
    · rename_i l hl
      refine P_bind (Env.recP E _ _ (.child hn (List.mem_of_find?_eq_some hl)) rfl) (fun l _ hl => ?_)
      refine P_bind (Env.recP E _ _ (in_tryCByN hn halt) rfl) (fun r _ hr => ?_)
      refine P_ok (Kid_of (T_bwcpU (by decide) ?_ (T_nil (by decide))))
      rw [List.append_assoc]
      refine first ?_
      split
      · exact T_tS (by decide) (T_kid hl (by decide) (T_tS (by decide) (T_kid hr (by decide) (T_nil (by decide)))))
      · refine T_nl (by decide) (T_kid hl (by decide) ?_)
        split
        · exact T_tS (by decide) (T_kid hr (by decide) (T_nil (by decide)))
        · exact T_indent (T_nl (by decide) (T_kid hr (by decide) (T_nil (by decide))))

end Afmt.Words
