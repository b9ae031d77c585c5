import Verif.Gram.C5

/-!
# The printed content of nodes: choices (src/enum_def.rs)

A constructor of an enum looks at the kind of the node and calls the constructor of the alternative for the same node.
-/

namespace Afmt.Gram
open Prog New
set_option maxRecDepth 100000
section
variable {root : Node} {cm : CMap} {cfg : Cfg} {bad : Panic → Prop} {rec : Rec} {l : Loc} {m : Nat}

/-- Conformance depends on the nonterminal only by the alternative for the kind of the node. -/
theorem conf_core {n : Node} {nt nt' : NT} (h : conf n nt = true) (hc : nt.core n.kind = nt'.core n.kind) :
    conf n nt' = true := by
  cases n with
  | mk id kind named extra err field sr er sb eb text children =>
    rw [conf] at h ⊢
    rw [← show nt.core kind = nt'.core kind from hc]
    exact h

/-- The alternatives can be followed one by one. -/
def stepwise (c : Cls) : Bool :=
  (sub c).all (fun e => rank e.2 < rank c && plainCls e.2 && resolve 4 e.2 e.1 == resolve 5 e.2 e.1)

theorem choice {c : Cls} (h : conf l.node (.cls c) = true) (hk : (NT.cls c).kinds = some []) (hs : stepwise c = true) :
    ∃ e, e ∈ sub c ∧ e.1 = l.kind ∧ (sub c).find? (fun d => d.1 == l.kind) = some e ∧ conf l.node (.cls e.2) = true := by
  cases hf : (sub c).find? (fun e => e.1 == l.kind) with
  | none =>
    have hcore : (NT.cls c).core l.node.kind = .cls c := by
      show NT.cls (resolve 5 c l.kind) = _
      rw [resolve, hf]
    have := (conf_node h).2 [] (by rw [hcore]; exact hk)
    cases this
  | some e =>
    have he := List.mem_of_find?_eq_some hf
    have hek : e.1 = l.kind := by simpa using List.find?_some hf
    refine ⟨e, he, hek, rfl, conf_core h ?_⟩
    show NT.cls (resolve 5 c l.kind) = NT.cls (resolve 5 e.2 l.kind)
    rw [resolve, hf]
    have := List.all_eq_true.1 hs e he
    simp only [Bool.and_eq_true, beq_iff_eq] at this
    rw [hek] at this
    rw [← this.2]

theorem choice_sx {c : Cls} (C : Ctx root cm cfg bad rec l m) (hb : Body l) (hm : 8 * depth l.node + rank c ≤ m)
    (h : conf l.node (.cls c) = true) (hk : (NT.cls c).kinds = some []) (hs : stepwise c = true) :
    ∃ e, e ∈ sub c ∧ e.1 = l.kind ∧ (sub c).find? (fun d => d.1 == l.kind) = some e ∧
      W bad (rec e.2 l) (fun p => Sx (items cm p) (full cm l)) := by
  obtain ⟨e, he, hek, hf, hc⟩ := choice h hk hs
  have := List.all_eq_true.1 hs e he
  simp only [Bool.and_eq_true, decide_eq_true_eq] at this
  exact ⟨e, he, hek, hf, C.call (.node C.reach this.1.2 hc hb) (by have := this.1.1; omega)⟩

theorem dispatch_sx {c : Cls} {tbl : List (String × Cls)} (C : Ctx root cm cfg bad rec l m) (hb : Body l)
    (hm : 8 * depth l.node + rank c ≤ m) (h : conf l.node (.cls c) = true) (hk : (NT.cls c).kinds = some [])
    (hs : stepwise c = true) (ht : (sub c).all (fun e => tbl.find? (fun d => d.1 == e.1) == some e) = true) :
    W bad (dispatch rec tbl l) (fun p => Sx (items cm p) (full cm l)) := by
  obtain ⟨e, he, hek, _, hw⟩ := choice_sx C hb hm h hk hs
  have := List.all_eq_true.1 ht e he
  rw [beq_iff_eq, hek] at this
  rw [dispatch, this]
  exact hw

/-- What a choice prints. -/
local macro "choice_theorem " n:ident c:ident f:ident : command => `(
  theorem $n (C : Ctx root cm cfg bad rec l m) (hb : Body l) (hm : 8 * depth l.node + rank $c ≤ m)
      (h : conf l.node (.cls $c) = true) : W bad ($f rec l) (fun p => Sx (items cm p) (full cm l)) :=
    dispatch_sx C hb hm h rfl (by decide) (by decide))

choice_theorem rootMember_sx Cls.rootMember New.rootMember
choice_theorem classMember_sx Cls.classMember New.classMember
choice_theorem interfaceMember_sx Cls.interfaceMember New.interfaceMember
choice_theorem unannotatedType_sx Cls.unannotatedType New.unannotatedType
choice_theorem simpleType_sx Cls.simpleType New.simpleType
choice_theorem type_sx Cls.type New.type
choice_theorem expression_sx Cls.expression New.expression
choice_theorem primaryExpression_sx Cls.primaryExpression New.primaryExpression
choice_theorem literal_sx Cls.literal New.literal
choice_theorem assignmentLeft_sx Cls.assignmentLeft New.assignmentLeft
choice_theorem selectableExpression_sx Cls.selectableExpression New.selectableExpression
choice_theorem storageVariant_sx Cls.storageVariant New.storageVariant
choice_theorem limitValue_sx Cls.limitValue New.limitValue
choice_theorem valueExpression_sx Cls.valueExpression New.valueExpression
choice_theorem soqlLiteral_sx Cls.soqlLiteral New.soqlLiteral
choice_theorem setValue_sx Cls.setValue New.setValue
choice_theorem usingClauseOption_sx Cls.usingClauseOption New.usingClauseOption

theorem statement_sx (C : Ctx root cm cfg bad rec l m) (hb : Body l) (hm : 8 * depth l.node + rank .statement ≤ m)
    (h : conf l.node (.cls .statement) = true) : W bad (New.statement rec l) (fun p => Sx (items cm p) (full cm l)) := by
  obtain ⟨e, he, hek, _⟩ := choice (l := l) h rfl (by decide)
  unfold New.statement
  rw [if_neg]
  · exact dispatch_sx (c := .statement) C hb hm h rfl (by decide) (by decide)
  · rw [← hek]
    have : (sub .statement).all (fun e => e.1 != ";") = true := by decide
    simpa using List.all_eq_true.1 this e he

/-- A choice between one kind and the others. -/
theorem either_sx {c c1 c2 : Cls} {k : String} (C : Ctx root cm cfg bad rec l m) (hb : Body l)
    (hm : 8 * depth l.node + rank c ≤ m) (h : conf l.node (.cls c) = true) (hk : (NT.cls c).kinds = some [])
    (hs : stepwise c = true) (ht : (sub c).all (fun e => e.2 == if e.1 = k then c1 else c2) = true) :
    W bad (if l.kind = k then rec c1 l else rec c2 l) (fun p => Sx (items cm p) (full cm l)) := by
  obtain ⟨e, he, hek, _, hw⟩ := choice_sx C hb hm h hk hs
  have := List.all_eq_true.1 ht e he
  rw [beq_iff_eq, hek] at this
  split
  · rename_i hk
    rw [if_pos hk] at this
    rw [this] at hw
    exact hw
  · rename_i hk
    rw [if_neg hk] at this
    rw [this] at hw
    exact hw

theorem variableInitializer_sx (C : Ctx root cm cfg bad rec l m) (hb : Body l)
    (hm : 8 * depth l.node + rank .variableInitializer ≤ m) (h : conf l.node (.cls .variableInitializer) = true) :
    W bad (New.variableInitializer rec l) (fun p => Sx (items cm p) (full cm l)) :=
  either_sx (c := .variableInitializer) C hb hm h rfl (by decide) (by decide)

theorem objectExpression_sx (C : Ctx root cm cfg bad rec l m) (hb : Body l)
    (hm : 8 * depth l.node + rank .objectExpression ≤ m) (h : conf l.node (.cls .objectExpression) = true) :
    W bad (New.objectExpression rec l) (fun p => Sx (items cm p) (full cm l)) :=
  either_sx (c := .objectExpression) C hb hm h rfl (by decide) (by decide)

theorem fieldOption_sx (C : Ctx root cm cfg bad rec l m) (hb : Body l)
    (hm : 8 * depth l.node + rank .fieldOption ≤ m) (h : conf l.node (.cls .fieldOption) = true) :
    W bad (New.fieldOption rec l) (fun p => Sx (items cm p) (full cm l)) :=
  either_sx (c := .fieldOption) C hb hm h rfl (by decide) (by decide)

theorem comparableListValue_sx (C : Ctx root cm cfg bad rec l m) (hb : Body l)
    (hm : 8 * depth l.node + rank .comparableListValue ≤ m) (h : conf l.node (.cls .comparableListValue) = true) :
    W bad (New.comparableListValue rec l) (fun p => Sx (items cm p) (full cm l)) :=
  either_sx (c := .comparableListValue) C hb hm h rfl (by decide) (by decide)

theorem booleanExpression_sx (C : Ctx root cm cfg bad rec l m) (hb : Body l)
    (hm : 8 * depth l.node + rank .booleanExpression ≤ m) (h : conf l.node (.cls .booleanExpression) = true) :
    W bad (New.booleanExpression rec l) (fun p => Sx (items cm p) (full cm l)) := by
  obtain ⟨e, he, hek, _, hw⟩ := choice_sx (c := .booleanExpression) C hb hm h rfl (by decide)
  unfold New.booleanExpression
  rw [← hek]
  rcases he with _ | ⟨_, _ | ⟨_, _ | ⟨_, _ | ⟨_, h⟩⟩⟩⟩
  · exact hw
  · rw [if_neg (by decide)]; exact hw
  · rw [if_neg (by decide), if_neg (by decide)]; exact hw
  · rw [if_neg (by decide), if_neg (by decide), if_neg (by decide)]; exact hw
  · cases h

end
end Afmt.Gram
