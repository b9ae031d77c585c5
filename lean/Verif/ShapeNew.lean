import Verif.ShapeTac

/-!
# Constructors on trees that differ in ids and positions only
-/

set_option linter.unusedVariables false

namespace Afmt
open Prog.New

variable {root : Node} {τ : Nat → Pos} {cfg cfg' : Cfg} {rec rec' : Rec} {n : Loc}

set_option hygiene false in
/-- Case distinction on an optional child of some kind. -/
macro "ckK " k:term : tactic => `(tactic|
  (rw [loc_tryCByK]; cases hK : n.tryCByK $k <;> (simp only [Option.map_none, Option.map_some]; try have hx := in_tryCByK hn hK)))

set_option hygiene false in
/-- Case distinction on an optional child in some field. -/
macro "ckN " k:term : tactic => `(tactic|
  (rw [loc_tryCByN]; cases hK : n.tryCByN $k <;> (simp only [Option.map_none, Option.map_some]; try have hx := in_tryCByN hn hK)))

theorem shown_word {l : Loc} (h : wordField l.pkind l.pfield l.node.field = true) : l.node.isWord l.pkind l.pfield = true := by
  rw [Node.isWord, Node.shown, h]
  cases hf : l.node.field with
  | none => rw [hf] at h; cases h
  | some f => simp [isCommentNode]

theorem letters_word {l : Loc} (h : wordField l.pkind l.pfield l.node.field = true) : l.letters = .asIs := by
  rw [Loc.letters, lettersOf, h, Bool.or_true, Bool.true_or, if_pos rfl]

theorem E.kept_annotation (e : E root τ cfg cfg' rec rec') (hn : In root n) {c : Loc} (hc : n.cByN "value" = .ok c)
    (h : n.kind = "annotation_key_value" ∨ n.node.field = some "arguments") : Kept τ c := by
  have hc' := try_of_cByN hc
  have hw : wordField c.pkind c.pfield c.node.field = true := by
    rw [field_tryCByN hc', pkind_child (child_tryCByN hc'), pfield_child (child_tryCByN hc')]
    rcases h with h | h <;> rw [h] <;> simp [wordField]
  exact e.kept (in_cByN hn hc) (shown_word hw) (letters_word hw)

theorem E.kept_object (e : E root τ cfg cfg' rec rec') (hn : In root n) {c : Loc} (hc : n.cByN "object" = .ok c)
    (h : n.kind = "trigger_declaration") : Kept τ c := by
  have hc' := try_of_cByN hc
  have hw : wordField c.pkind c.pfield c.node.field = true := by
    rw [field_tryCByN hc', pkind_child (child_tryCByN hc'), h]
    simp [wordField]
  exact e.kept (in_cByN hn hc) (shown_word hw) (letters_word hw)

theorem constructor_body {c : Loc} (h : n.kind = "constructor_declaration") (hc : n.cByN "body" = .ok c) : c.isBody = true := by
  have hc' := try_of_cByN hc
  rw [Loc.isBody, isBodyNode, pkind_child (child_tryCByN hc'), h, field_tryCByN hc']
  simp

theorem find_nodes {f : String} {c : Loc} (h : n.tryCByN f = some c) : n.node.children.find? (·.field == some f) = some c.node := by
  rw [← Gram.children_map n, List.find?_map]
  show (n.children.find? _).map _ = _
  have : n.children.find? ((fun x => x.field == some f) ∘ Loc.node) = some c := h
  rw [this]
  rfl

/-- Operator and operand keep their order. -/
theorem E.order (e : E root τ cfg cfg' rec rec') (hn : In root n) {o x : Loc} (ho : n.cByN "operator" = .ok o)
    (hx : n.cByN "operand" = .ok x) : ((o.ren τ).startByte < (x.ren τ).startByte) = (o.startByte < x.startByte) := by
  have h := congrArg Skel.opFirst (e.look n hn)
  have h1 := find_nodes (try_of_cByN ho)
  have h2 := find_nodes (try_of_cByN hx)
  have h3 : (n.ren τ).tryCByN "operator" = some (o.ren τ) := by rw [loc_tryCByN, try_of_cByN ho]; rfl
  have h4 : (n.ren τ).tryCByN "operand" = some (x.ren τ) := by rw [loc_tryCByN, try_of_cByN hx]; rfl
  rw [skel_opFirst, skel_opFirst, Node.operatorFirst, h1, h2, Node.operatorFirst, find_nodes h3, find_nodes h4] at h
  simp only [Option.some.injEq, decide_eq_decide] at h
  exact propext h.symm

theorem punc_new (l : Loc) : Punc.new (l.ren τ) = (Punc.new l).map (Punc.ren τ) := by
  unfold Punc.new
  rw [loc_kind, loc_id]
  split
  · rfl
  split <;> rfl

theorem boolOperator_ren (l : Loc) : boolOperator (l.ren τ) = boolOperator l := by
  unfold boolOperator
  rw [loc_kind]

theorem binaryContext_ren (l : Loc) : binaryContext (l.ren τ) = binaryContext l := by
  unfold binaryContext
  rw [loc_cByN, loc_parent]
  cases l.cByN "operator" with
  | error e => rfl
  | ok o =>
    simp only [Except.map, bind, Except.bind, loc_kind]
    cases getPrecedence o.kind with
    | error e => rfl
    | ok p =>
      cases l.parent with
      | none => rfl
      | some q =>
        simp only [Option.map_some, isBinary_ren, loc_cByN, loc_kind]
        cases q.cByN "operator" with
        | error e => rfl
        | ok r => simp only [Except.map, loc_kind]

theorem ren_constructorBodyDoc (inv : Option (Bool × Prog)) (ss : List (Bool × Prog)) :
    Prog.rens τ (constructorBodyDoc inv ss) = constructorBodyDoc (inv.map (fun m => (m.1, m.2.ren τ))) (renBody τ ss) := by
  rcases inv with _ | ⟨tr, c⟩ <;> rcases ss with _ | ⟨s, ss⟩
  · simp only [constructorBodyDoc, Prog.rens, Prog.ren, renBody, List.map, Option.map, ren_t]
  · simp only [constructorBodyDoc, Prog.rens, Prog.ren, ren_intersperseBody, ren_t]
    rfl
  · simp only [constructorBodyDoc, Prog.rens, Prog.ren, ren_intersperseBody, ren_t]
    rfl
  · simp only [constructorBodyDoc, Prog.rens, Prog.ren, ren_intersperseBody, ren_t, ren_ite]
    rfl


theorem root_ren (e : E root τ cfg cfg' rec rec') (hn : In root n) :
    Prog.New.root cfg' rec' (n.ren τ) = (Prog.New.root cfg rec n).map (Prog.ren τ) := by
  unfold Prog.New.root
  rs
  rename_i hc
  refine bindE (e.members hn (body_of_kind (kind_of_check hc) (by decide)) (by intro _; kk)) ?_
  intro _ _
  all_goals fin

theorem classDeclaration_ren (e : E root τ cfg cfg' rec rec') (hn : In root n) :
    classDeclaration rec' (n.ren τ) = (classDeclaration rec n).map (Prog.ren τ) := by
  unfold classDeclaration
  repeat rs
  all_goals fin

theorem methodDeclaration_ren (e : E root τ cfg cfg' rec rec') (hn : In root n) :
    methodDeclaration rec' (n.ren τ) = (methodDeclaration rec n).map (Prog.ren τ) := by
  unfold methodDeclaration
  repeat rs
  all_goals fin

theorem formalParameters_ren (e : E root τ cfg cfg' rec rec') (hn : In root n) :
    formalParameters rec' (n.ren τ) = (formalParameters rec n).map (Prog.ren τ) := by
  unfold formalParameters
  repeat rs
  all_goals fin

theorem formalParameter_ren (e : E root τ cfg cfg' rec rec') (hn : In root n) :
    formalParameter rec' (n.ren τ) = (formalParameter rec n).map (Prog.ren τ) := by
  unfold formalParameter
  repeat rs
  all_goals fin

theorem superClass_ren (e : E root τ cfg cfg' rec rec') (hn : In root n) :
    superClass rec' (n.ren τ) = (superClass rec n).map (Prog.ren τ) := by
  unfold superClass
  repeat rs
  all_goals fin

theorem modifiers_ren (e : E root τ cfg cfg' rec rec') (hn : In root n) :
    modifiers rec' (n.ren τ) = (modifiers rec n).map (Prog.ren τ) := by
  unfold modifiers
  repeat rs
  all_goals fin

theorem modifier_ren (e : E root τ cfg cfg' rec rec') (hn : In root n) :
    modifier rec' (n.ren τ) = (modifier rec n).map (Prog.ren τ) := by
  unfold modifier
  repeat rs
  all_goals fin

theorem annotation_ren (e : E root τ cfg cfg' rec rec') (hn : In root n) :
    annotation rec' (n.ren τ) = (annotation rec n).map (Prog.ren τ) := by
  unfold annotation
  repeat rs
  all_goals fin

theorem annotationKeyValue_ren (e : E root τ cfg cfg' rec rec') (hn : In root n) :
    annotationKeyValue rec' (n.ren τ) = (annotationKeyValue rec n).map (Prog.ren τ) := by
  unfold annotationKeyValue
  refine bindS (assertCheck_ren _ _ _) ?_
  intro _ hk
  rs
  rs
  refine bindE (loc_cByN _ _ _) ?_
  intro v hv
  refine bindE (e.call _ _ (in_cByN hn hv) (e.kept_annotation hn hv (.inl (kind_of_check hk)))) ?_
  intro _ _
  all_goals fin

theorem classBody_ren (e : E root τ cfg cfg' rec rec') (hn : In root n) :
    classBody cfg' rec' (n.ren τ) = (classBody cfg rec n).map (Prog.ren τ) := by
  unfold classBody
  rs
  rename_i hc
  refine bindE (e.members hn (body_of_kind (kind_of_check hc) (by decide)) (by intro _; kk)) ?_
  intro _ _
  all_goals fin

theorem fieldDeclaration_ren (e : E root τ cfg cfg' rec rec') (hn : In root n) :
    fieldDeclaration rec' (n.ren τ) = (fieldDeclaration rec n).map (Prog.ren τ) := by
  unfold fieldDeclaration
  repeat rs
  all_goals fin

theorem arrayInitializer_ren (e : E root τ cfg cfg' rec rec') (hn : In root n) :
    arrayInitializer rec' (n.ren τ) = (arrayInitializer rec n).map (Prog.ren τ) := by
  unfold arrayInitializer
  repeat rs
  all_goals fin

theorem assignmentExpression_ren (e : E root τ cfg cfg' rec rec') (hn : In root n) :
    assignmentExpression rec' (n.ren τ) = (assignmentExpression rec n).map (Prog.ren τ) := by
  unfold assignmentExpression
  repeat rs
  all_goals fin

theorem assignmentLeft_ren (e : E root τ cfg cfg' rec rec') (hn : In root n) :
    assignmentLeft rec' (n.ren τ) = (assignmentLeft rec n).map (Prog.ren τ) := by
  unfold assignmentLeft
  repeat rs
  all_goals fin

theorem boolType_ren (e : E root τ cfg cfg' rec rec') (hn : In root n) :
    boolType (n.ren τ) = (boolType n).map (Prog.ren τ) := by
  unfold boolType
  repeat rs
  all_goals fin

theorem block_ren (e : E root τ cfg cfg' rec rec') (hn : In root n) :
    block cfg' rec' (n.ren τ) = (block cfg rec n).map (Prog.ren τ) := by
  unfold block
  rs
  rename_i hc
  refine bindE (e.members hn (body_of_kind (kind_of_check hc) (by decide)) (by intro _; kk)) ?_
  intro _ _
  all_goals fin

theorem interface_ren (e : E root τ cfg cfg' rec rec') (hn : In root n) :
    interface rec' (n.ren τ) = (interface rec n).map (Prog.ren τ) := by
  unfold interface
  repeat rs
  all_goals fin

theorem typeList_ren (e : E root τ cfg cfg' rec rec') (hn : In root n) :
    typeList rec' (n.ren τ) = (typeList rec n).map (Prog.ren τ) := by
  unfold typeList
  repeat rs
  all_goals fin

theorem objectExpression_ren (e : E root τ cfg cfg' rec rec') (hn : In root n) :
    objectExpression rec' (n.ren τ) = (objectExpression rec n).map (Prog.ren τ) := by
  unfold objectExpression
  repeat rs
  all_goals fin

theorem propertyNavigation_ren (e : E root τ cfg cfg' rec rec') (hn : In root n) :
    propertyNavigation rec' (n.ren τ) = (propertyNavigation rec n).map (Prog.ren τ) := by
  unfold propertyNavigation
  repeat rs
  all_goals fin

theorem methodInvocation_ren (e : E root τ cfg cfg' rec rec') (hn : In root n) :
    methodInvocation rec' (n.ren τ) = (methodInvocation rec n).map (Prog.ren τ) := by
  unfold methodInvocation
  repeat rs
  ckN "object"
  · repeat rs
    all_goals fin
  refine bindE (e.call _ _ (by assumption) (by kk)) ?_
  intro _ _
  refine bindE (propertyNavigation_ren e hx) ?_
  intro _ _
  repeat rs
  all_goals fin

theorem typeArguments_ren (e : E root τ cfg cfg' rec rec') (hn : In root n) :
    typeArguments rec' (n.ren τ) = (typeArguments rec n).map (Prog.ren τ) := by
  unfold typeArguments
  repeat rs
  all_goals fin

theorem argumentList_ren (e : E root τ cfg cfg' rec rec') (hn : In root n) :
    argumentList rec' (n.ren τ) = (argumentList rec n).map (Prog.ren τ) := by
  unfold argumentList
  repeat rs
  all_goals fin

theorem super_ren (e : E root τ cfg cfg' rec rec') (hn : In root n) :
    super (n.ren τ) = (super n).map (Prog.ren τ) := by
  unfold super
  repeat rs
  all_goals fin

theorem this_ren (e : E root τ cfg cfg' rec rec') (hn : In root n) :
    this (n.ren τ) = (this n).map (Prog.ren τ) := by
  unfold this
  repeat rs
  all_goals fin

theorem binaryExpression_ren (e : E root τ cfg cfg' rec rec') (hn : In root n) :
    binaryExpression rec' (n.ren τ) = (binaryExpression rec n).map (Prog.ren τ) := by
  unfold binaryExpression
  repeat rs
  refine bindS (binaryContext_ren _) ?_
  intro _ _
  all_goals fin

theorem localVariableDeclaration_ren (e : E root τ cfg cfg' rec rec') (hn : In root n) :
    localVariableDeclaration rec' (n.ren τ) = (localVariableDeclaration rec n).map (Prog.ren τ) := by
  unfold localVariableDeclaration
  repeat rs
  all_goals fin

theorem variableDeclarator_ren (e : E root τ cfg cfg' rec rec') (hn : In root n) :
    variableDeclarator rec' (n.ren τ) = (variableDeclarator rec n).map (Prog.ren τ) := by
  unfold variableDeclarator
  repeat rs
  ckN "value"
  · repeat rs
    all_goals fin
  · repeat rs
    all_goals fin

theorem genericType_ren (e : E root τ cfg cfg' rec rec') (hn : In root n) :
    genericType rec' (n.ren τ) = (genericType rec n).map (Prog.ren τ) := by
  unfold genericType
  rs
  refine bindE (f := Prog.ren τ) ?_ ?_
  · ckK "type_identifier"
    · ckK "scoped_type_identifier"
      · rs
      · rs
    · rw [kept_value (e.kept_tryCByK hK hn (by decide))]
      all_goals fin
  intro _ _
  repeat rs
  all_goals fin

theorem ifStatement_ren (e : E root τ cfg cfg' rec rec') (hn : In root n) :
    ifStatement rec' (n.ren τ) = (ifStatement rec n).map (Prog.ren τ) := by
  unfold ifStatement
  repeat rs
  ckN "alternative"
  · fin
  rw [loc_children, find_ren τ (p := fun c => c.kind == "else") (fun l => by rw [loc_kind])]
  cases hf : n.children.find? (fun c => c.kind == "else") with
  | none => exact errE
  | some x =>
    simp only [Option.map_some]
    have hi : In root x := .child hn (List.mem_of_find?_eq_some hf)
    have hq : x.kind = "else" := by simpa using List.find?_some hf
    repeat rs
    all_goals fin

theorem parenthesizedExpression_ren (e : E root τ cfg cfg' rec rec') (hn : In root n) :
    parenthesizedExpression rec' (n.ren τ) = (parenthesizedExpression rec n).map (Prog.ren τ) := by
  unfold parenthesizedExpression
  repeat rs
  all_goals fin

theorem forInitOption_ren (e : E root τ cfg cfg' rec rec') (hn : In root n) :
    forInitOption rec' (n.ren τ) = (forInitOption rec n).map (Prog.ren τ) := by
  unfold forInitOption
  repeat rs
  rw [loc_parent]
  cases hp : n.parent with
  | none => exact errE
  | some p =>
    simp only [Option.map_some]
    have hi := in_parent hn hp
    repeat rs
    all_goals fin

theorem loopBody_ren (e : E root τ cfg cfg' rec rec') (hn : In root n) :
    loopBody rec' (n.ren τ) = (loopBody rec n).map (Prog.rens τ) := by
  unfold loopBody
  repeat rs
  all_goals fin

theorem forStatement_ren (e : E root τ cfg cfg' rec rec') (hn : In root n) :
    forStatement rec' (n.ren τ) = (forStatement rec n).map (Prog.ren τ) := by
  unfold forStatement
  repeat rs
  refine bindE (f := List.map (Punc.ren τ)) ?_ ?_
  · rw [loc_children, filter_ren τ (p := fun c => c.kind == ";") (fun l => by rw [loc_kind])]
    exact mapE (fun l _ => punc_new l)
  intro s _
  repeat rs
  refine bindE (loopBody_ren e (by assumption)) ?_
  intro b _
  rename_i i _ c _ u _ _ _ _
  refine bindE (f := Prog.rens τ) ?_ ?_
  · rcases i with _ | i <;> rcases c with _ | c <;> rcases u with _ | u <;> rcases s with _ | ⟨s, _ | ⟨s', ss⟩⟩ <;>
      first | exact errE | (refine okE ?_; docs)
  intro _ _
  all_goals fin

theorem enhancedForStatement_ren (e : E root τ cfg cfg' rec rec') (hn : In root n) :
    enhancedForStatement rec' (n.ren τ) = (enhancedForStatement rec n).map (Prog.ren τ) := by
  unfold enhancedForStatement
  repeat rs
  refine bindE (loopBody_ren e (by assumption)) ?_
  intro b _
  all_goals fin

theorem updateExpressionVariant_ren (e : E root τ cfg cfg' rec rec') (hn : In root n) :
    updateExpressionVariant rec' (n.ren τ) = (updateExpressionVariant rec n).map (Prog.ren τ) := by
  unfold updateExpressionVariant
  rs
  refine bindE (loc_cByN _ _ _) ?_
  intro o ho
  refine bindE (loc_cByN _ _ _) ?_
  intro x hx
  have hi := in_cByN hn hx
  repeat rs
  refine okE ?_
  have h1 := kept_value (e.kept_cByN ho hn (by decide))
  have h2 := e.order hn ho hx
  simp only [h1, h2]
  docs

theorem scopedTypeIdentifier_ren (e : E root τ cfg cfg' rec rec') (hn : In root n) :
    scopedTypeIdentifier rec' (n.ren τ) = (scopedTypeIdentifier rec n).map (Prog.ren τ) := by
  unfold scopedTypeIdentifier
  rs
  rs
  refine bindE (f := Prog.ren τ) ?_ ?_
  · refine iteE (by simp only [loc_kind]) ?_ ?_ <;> intro h
    · rw [kept_value (e.kept_kind this h (by decide))]
      all_goals fin
    · repeat rs
  intro _ _
  rs
  refine bindE (loc_csByK _ _ _) ?_
  intro is his
  rw [List.getLast?_map]
  cases hl : is.getLast? with
  | none => exact errE
  | some i =>
    simp only [Option.map_some]
    have hm := List.mem_of_getLast? hl
    rw [kept_value (e.kept_cs his hm hn (by decide))]
    refine okE ?_
    simp only [annotatedName]
    docs

theorem constructorDeclaration_ren (e : E root τ cfg cfg' rec rec') (hn : In root n) (hk : K τ .constructorDeclaration n) :
    constructorDeclaration rec' (n.ren τ) = (constructorDeclaration rec n).map (Prog.ren τ) := by
  unfold constructorDeclaration
  repeat rs
  refine bindE (e.call _ _ (by assumption) (constructor_body hk hc)) ?_
  intro _ _
  repeat rs
  all_goals fin

theorem constructorBody_ren (e : E root τ cfg cfg' rec rec') (hn : In root n) (hk0 : K τ .constructorBody n) :
    constructorBody cfg' rec' (n.ren τ) = (constructorBody cfg rec n).map (Prog.ren τ) := by
  unfold constructorBody
  refine bindE (f := fun x => (x.1.map (fun m => (m.1, m.2.ren τ)), renBody τ x.2)) ?_ ?_
  · have hv := fun l hl c hk => bodyMemberE (l := l) (c := c) e hn hk0 hl hk
    rw [loc_childrenVec]
    revert hv
    generalize n.childrenVec = ls
    intro hv
    rcases ls with _ | ⟨c, cs⟩
    · rfl
    simp only [List.map_cons]
    refine iteE (by simp only [loc_kind]) ?_ ?_ <;> intro _
    · refine bindE (hv c (.head _) _ (by kk)) ?_
      intro _ _
      refine bindE (f := renBody τ) (mapE (fun l hl => hv l (.tail _ hl) _ (by kk))) ?_
      intro _ _
      rfl
    · refine bindE (f := renBody τ) ?_ ?_
      · exact mapE (ls := c :: cs) (fun l hl => hv l hl _ (by kk))
      intro _ _
      rfl
  rintro ⟨inv, ss⟩ _
  refine okE ?_
  simp only [Prog.ren, Prog.rens, loc_id, ren_danglingBracket, ren_constructorBodyDoc]

theorem constructInvocation_ren (e : E root τ cfg cfg' rec rec') (hn : In root n) :
    constructInvocation rec' (n.ren τ) = (constructInvocation rec n).map (Prog.ren τ) := by
  unfold constructInvocation
  repeat rs
  refine bindE (f := Option.map (Prog.ren τ)) ?_ ?_
  · rw [loc_tryCByN]
    refine optE (fun l _ => ?_)
    repeat rs
    all_goals fin
  intro _ _
  repeat rs
  all_goals fin

theorem typeParameters_ren (e : E root τ cfg cfg' rec rec') (hn : In root n) :
    typeParameters rec' (n.ren τ) = (typeParameters rec n).map (Prog.ren τ) := by
  unfold typeParameters
  repeat rs
  all_goals fin

theorem typeParameter_ren (e : E root τ cfg cfg' rec rec') (hn : In root n) :
    typeParameter rec' (n.ren τ) = (typeParameter rec n).map (Prog.ren τ) := by
  unfold typeParameter
  repeat rs
  refine okE ?_
  simp only [annotatedName]
  docs

theorem objectCreationExpression_ren (e : E root τ cfg cfg' rec rec') (hn : In root n) :
    objectCreationExpression rec' (n.ren τ) = (objectCreationExpression rec n).map (Prog.ren τ) := by
  unfold objectCreationExpression
  repeat rs
  all_goals fin

theorem runAsStatement_ren (e : E root τ cfg cfg' rec rec') (hn : In root n) :
    runAsStatement rec' (n.ren τ) = (runAsStatement rec n).map (Prog.ren τ) := by
  unfold runAsStatement
  repeat rs
  all_goals fin

theorem doStatement_ren (e : E root τ cfg cfg' rec rec') (hn : In root n) :
    doStatement rec' (n.ren τ) = (doStatement rec n).map (Prog.ren τ) := by
  unfold doStatement
  repeat rs
  all_goals fin

theorem whileStatement_ren (e : E root τ cfg cfg' rec rec') (hn : In root n) :
    whileStatement rec' (n.ren τ) = (whileStatement rec n).map (Prog.ren τ) := by
  unfold whileStatement
  repeat rs
  all_goals fin

theorem unaryExpression_ren (e : E root τ cfg cfg' rec rec') (hn : In root n) :
    unaryExpression rec' (n.ren τ) = (unaryExpression rec n).map (Prog.ren τ) := by
  unfold unaryExpression
  repeat rs
  all_goals fin

theorem fieldNavigation_ren (e : E root τ cfg cfg' rec rec') (hn : In root n) :
    fieldNavigation rec' (n.ren τ) = (fieldNavigation rec n).map (Prog.ren τ) := by
  unfold fieldNavigation
  ckK "safe_navigation_operator"
  · fin
  · rs

theorem fieldAccess_ren (e : E root τ cfg cfg' rec rec') (hn : In root n) :
    fieldAccess rec' (n.ren τ) = (fieldAccess rec n).map (Prog.ren τ) := by
  unfold fieldAccess
  repeat rs
  refine bindE (fieldNavigation_ren e hn) ?_
  intro _ _
  repeat rs
  all_goals fin

theorem fieldOption_ren (e : E root τ cfg cfg' rec rec') (hn : In root n) (hk : K τ .fieldOption n) :
    fieldOption rec' (n.ren τ) = (fieldOption rec n).map (Prog.ren τ) := by
  unfold fieldOption
  refine iteE (by simp only [loc_kind]) ?_ ?_ <;> intro _
  · rs
  · exact e.call _ _ hn hk

theorem enumDeclaration_ren (e : E root τ cfg cfg' rec rec') (hn : In root n) :
    enumDeclaration rec' (n.ren τ) = (enumDeclaration rec n).map (Prog.ren τ) := by
  unfold enumDeclaration
  repeat rs
  all_goals fin

theorem enumBody_ren (e : E root τ cfg cfg' rec rec') (hn : In root n) :
    enumBody rec' (n.ren τ) = (enumBody rec n).map (Prog.ren τ) := by
  unfold enumBody
  repeat rs
  all_goals fin

theorem enumConstant_ren (e : E root τ cfg cfg' rec rec') (hn : In root n) :
    enumConstant rec' (n.ren τ) = (enumConstant rec n).map (Prog.ren τ) := by
  unfold enumConstant
  repeat rs
  all_goals fin

theorem dmlExpressionVariant_ren (e : E root τ cfg cfg' rec rec') (hn : In root n) :
    dmlExpressionVariant rec' (n.ren τ) = (dmlExpressionVariant rec n).map (Prog.ren τ) := by
  unfold dmlExpressionVariant
  repeat rs
  all_goals try (repeat rs)
  all_goals fin

theorem dmlSecurityMode_ren (e : E root τ cfg cfg' rec rec') (hn : In root n) :
    dmlSecurityMode (n.ren τ) = (dmlSecurityMode n).map (Prog.ren τ) := by
  unfold dmlSecurityMode
  rs
  refine iteE (by simp only [loc_kind]) ?_ ?_ <;> intro h
  · have : Kept τ _ := h.elim (fun h => e.kept_kind (by assumption) h (by decide)) (fun h => e.kept_kind (by assumption) h (by decide))
    rw [kept_value this]
    all_goals fin
  · exact errE

theorem dmlTypeVariant_ren (e : E root τ cfg cfg' rec rec') (hn : In root n) :
    dmlTypeVariant (n.ren τ) = (dmlTypeVariant n).map (Prog.ren τ) := by
  unfold dmlTypeVariant
  refine iteE (by simp only [loc_kind]) ?_ ?_ <;> intro h
  · fin
  · exact errE

theorem arrayAccess_ren (e : E root τ cfg cfg' rec rec') (hn : In root n) :
    arrayAccess rec' (n.ren τ) = (arrayAccess rec n).map (Prog.ren τ) := by
  unfold arrayAccess
  repeat rs
  all_goals fin

theorem arrayCreationExpression_ren (e : E root τ cfg cfg' rec rec') (hn : In root n) :
    arrayCreationExpression rec' (n.ren τ) = (arrayCreationExpression rec n).map (Prog.ren τ) := by
  unfold arrayCreationExpression
  rs
  refine bindE (f := Prog.rens τ) ?_ ?_
  · rw [loc_tryCByN, loc_tryCByN]
    cases hv : n.tryCByN "value" with
    | none =>
      simp only [Option.map_none]
      repeat rs
      all_goals fin
    | some v =>
      have := in_tryCByN hn hv
      cases hd : n.tryCByN "dimensions" with
      | none =>
        simp only [Option.map_none, Option.map_some]
        repeat rs
        all_goals fin
      | some d =>
        have := in_tryCByN hn hd
        simp only [Option.map_some]
        repeat rs
        all_goals fin
  intro _ _
  repeat rs
  all_goals fin

theorem dimensions_ren (e : E root τ cfg cfg' rec rec') (hn : In root n) :
    dimensions (n.ren τ) = (dimensions n).map (Prog.ren τ) := by
  unfold dimensions
  repeat rs
  all_goals fin

theorem dimensionsExpr_ren (e : E root τ cfg cfg' rec rec') (hn : In root n) :
    dimensionsExpr rec' (n.ren τ) = (dimensionsExpr rec n).map (Prog.ren τ) := by
  unfold dimensionsExpr
  repeat rs
  all_goals fin

theorem returnStatement_ren (e : E root τ cfg cfg' rec rec') (hn : In root n) :
    returnStatement rec' (n.ren τ) = (returnStatement rec n).map (Prog.ren τ) := by
  unfold returnStatement
  rs
  rw [loc_tryFirstC]
  cases hf : n.tryFirstC with
  | none =>
    simp only [Option.map_none]
    all_goals fin
  | some x =>
    simp only [Option.map_some]
    have hi := in_tryFirstC hn hf
    repeat rs
    all_goals fin

theorem ternaryExpression_ren (e : E root τ cfg cfg' rec rec') (hn : In root n) :
    ternaryExpression rec' (n.ren τ) = (ternaryExpression rec n).map (Prog.ren τ) := by
  unfold ternaryExpression
  repeat rs
  all_goals fin

theorem tryStatement_ren (e : E root τ cfg cfg' rec rec') (hn : In root n) :
    tryStatement rec' (n.ren τ) = (tryStatement rec n).map (Prog.ren τ) := by
  unfold tryStatement
  rs
  refine bindE (f := Prog.rens τ) ?_ ?_
  · ckK "finally_clause"
    · repeat rs
      all_goals fin
    · repeat rs
      all_goals fin
  intro _ _
  repeat rs
  all_goals fin

theorem catchClause_ren (e : E root τ cfg cfg' rec rec') (hn : In root n) :
    catchClause rec' (n.ren τ) = (catchClause rec n).map (Prog.ren τ) := by
  unfold catchClause
  repeat rs
  all_goals fin

theorem finallyClause_ren (e : E root τ cfg cfg' rec rec') (hn : In root n) :
    finallyClause rec' (n.ren τ) = (finallyClause rec n).map (Prog.ren τ) := by
  unfold finallyClause
  repeat rs
  all_goals fin

theorem staticInitializer_ren (e : E root τ cfg cfg' rec rec') (hn : In root n) :
    staticInitializer rec' (n.ren τ) = (staticInitializer rec n).map (Prog.ren τ) := by
  unfold staticInitializer
  repeat rs
  all_goals fin

theorem interfaceDeclaration_ren (e : E root τ cfg cfg' rec rec') (hn : In root n) :
    interfaceDeclaration rec' (n.ren τ) = (interfaceDeclaration rec n).map (Prog.ren τ) := by
  unfold interfaceDeclaration
  repeat rs
  all_goals fin

theorem extendsInterface_ren (e : E root τ cfg cfg' rec rec') (hn : In root n) :
    extendsInterface rec' (n.ren τ) = (extendsInterface rec n).map (Prog.ren τ) := by
  unfold extendsInterface
  repeat rs
  all_goals fin

theorem interfaceBody_ren (e : E root τ cfg cfg' rec rec') (hn : In root n) :
    interfaceBody cfg' rec' (n.ren τ) = (interfaceBody cfg rec n).map (Prog.ren τ) := by
  unfold interfaceBody
  rs
  rename_i hc
  refine bindE (e.members hn (body_of_kind (kind_of_check hc) (by decide)) (by intro _; kk)) ?_
  intro _ _
  all_goals fin

theorem interfaceMember_ren (e : E root τ cfg cfg' rec rec') (hn : In root n) :
    interfaceMember rec' (n.ren τ) = (interfaceMember rec n).map (Prog.ren τ) := by
  unfold interfaceMember
  repeat rs
  all_goals fin

theorem constantDeclaration_ren (e : E root τ cfg cfg' rec rec') (hn : In root n) :
    constantDeclaration rec' (n.ren τ) = (constantDeclaration rec n).map (Prog.ren τ) := by
  unfold constantDeclaration
  repeat rs
  all_goals fin

theorem accessorList_ren (e : E root τ cfg cfg' rec rec') (hn : In root n) :
    accessorList rec' (n.ren τ) = (accessorList rec n).map (Prog.ren τ) := by
  unfold accessorList
  repeat rs
  refine okE ?_
  rw [List.any_map]
  have : ((fun a => (Loc.tryCByN a "body").isSome) ∘ Loc.ren τ) = (fun a => (Loc.tryCByN a "body").isSome) := by
    funext x
    simp only [Function.comp, loc_tryCByN, Option.isSome_map]
  rw [this]
  docs

theorem accessorDeclaration_ren (e : E root τ cfg cfg' rec rec') (hn : In root n) :
    accessorDeclaration rec' (n.ren τ) = (accessorDeclaration rec n).map (Prog.ren τ) := by
  unfold accessorDeclaration
  repeat rs
  all_goals fin

theorem castExpression_ren (e : E root τ cfg cfg' rec rec') (hn : In root n) :
    castExpression rec' (n.ren τ) = (castExpression rec n).map (Prog.ren τ) := by
  unfold castExpression
  repeat rs
  all_goals fin

theorem throwStatement_ren (e : E root τ cfg cfg' rec rec') (hn : In root n) :
    throwStatement rec' (n.ren τ) = (throwStatement rec n).map (Prog.ren τ) := by
  unfold throwStatement
  repeat rs
  all_goals fin

theorem jump_ren (kw : String) (e : E root τ cfg cfg' rec rec') (hn : In root n) :
    jump rec' (n.ren τ) kw = (jump rec n kw).map (Prog.ren τ) := by
  unfold jump
  ckK "identifier"
  · fin
  · repeat rs
    all_goals fin

theorem breakStatement_ren (e : E root τ cfg cfg' rec rec') (hn : In root n) :
    breakStatement rec' (n.ren τ) = (breakStatement rec n).map (Prog.ren τ) := by
  unfold breakStatement
  rs
  exact jump_ren _ e hn

theorem continueStatement_ren (e : E root τ cfg cfg' rec rec') (hn : In root n) :
    continueStatement rec' (n.ren τ) = (continueStatement rec n).map (Prog.ren τ) := by
  unfold continueStatement
  rs
  exact jump_ren _ e hn

theorem switchExpression_ren (e : E root τ cfg cfg' rec rec') (hn : In root n) :
    switchExpression rec' (n.ren τ) = (switchExpression rec n).map (Prog.ren τ) := by
  unfold switchExpression
  repeat rs
  all_goals fin

theorem switchBlock_ren (e : E root τ cfg cfg' rec rec') (hn : In root n) :
    switchBlock rec' (n.ren τ) = (switchBlock rec n).map (Prog.ren τ) := by
  unfold switchBlock
  repeat rs
  all_goals fin

theorem switchRule_ren (e : E root τ cfg cfg' rec rec') (hn : In root n) :
    switchRule rec' (n.ren τ) = (switchRule rec n).map (Prog.ren τ) := by
  unfold switchRule
  repeat rs
  all_goals fin

theorem switchLabel_ren (e : E root τ cfg cfg' rec rec') (hn : In root n) :
    switchLabel rec' (n.ren τ) = (switchLabel rec n).map (Prog.ren τ) := by
  unfold switchLabel
  rs
  refine iteE (by simp only [loc_childrenVec, List.isEmpty_map]) ?_ ?_ <;> intro _
  · fin
  ckK "when_sobject_type"
  · repeat rs
    all_goals fin
  · repeat rs
    all_goals fin

theorem whenSObjectType_ren (e : E root τ cfg cfg' rec rec') (hn : In root n) :
    whenSObjectType rec' (n.ren τ) = (whenSObjectType rec n).map (Prog.ren τ) := by
  unfold whenSObjectType
  simp only [loc_childrenVec]
  rw [filter_ren τ (p := fun c => c.kind != "identifier") (fun l => by rw [loc_kind]),
    filter_ren τ (p := fun c => c.kind == "identifier") (fun l => by rw [loc_kind])]
  refine bindE (e.mapL (fun l hl => in_vec hn (List.mem_filter.mp hl).1) (by intro _ _; kk)) ?_
  intro ts _
  rw [List.getLast?_map, rens_eq, List.getLast?_map]
  cases ts.getLast? with
  | none => exact errE
  | some ty =>
    cases hl : (n.childrenVec.filter (fun c => c.kind == "identifier")).getLast? with
    | none => exact errE
    | some i =>
      simp only [Option.map_some]
      have hm := List.mem_filter.mp (List.mem_of_getLast? hl)
      rw [kept_value (e.kept_kind (in_vec hn hm.1) (by simpa using hm.2) (by decide))]
      all_goals fin

theorem instanceOfExpression_ren (e : E root τ cfg cfg' rec rec') (hn : In root n) :
    instanceOfExpression rec' (n.ren τ) = (instanceOfExpression rec n).map (Prog.ren τ) := by
  unfold instanceOfExpression
  repeat rs
  all_goals fin

theorem versionExpression_ren (e : E root τ cfg cfg' rec rec') (hn : In root n) :
    versionExpression rec' (n.ren τ) = (versionExpression rec n).map (Prog.ren τ) := by
  unfold versionExpression
  repeat rs
  all_goals fin

theorem javaFieldAccess_ren (e : E root τ cfg cfg' rec rec') (hn : In root n) :
    javaFieldAccess rec' (n.ren τ) = (javaFieldAccess rec n).map (Prog.ren τ) := by
  unfold javaFieldAccess
  repeat rs
  all_goals fin

theorem javaType_ren (e : E root τ cfg cfg' rec rec') (hn : In root n) :
    javaType rec' (n.ren τ) = (javaType rec n).map (Prog.ren τ) := by
  unfold javaType
  repeat rs
  all_goals fin

theorem arrayType_ren (e : E root τ cfg cfg' rec rec') (hn : In root n) :
    arrayType rec' (n.ren τ) = (arrayType rec n).map (Prog.ren τ) := by
  unfold arrayType
  repeat rs
  all_goals fin

theorem triggerDeclaration_ren (e : E root τ cfg cfg' rec rec') (hn : In root n) :
    triggerDeclaration rec' (n.ren τ) = (triggerDeclaration rec n).map (Prog.ren τ) := by
  unfold triggerDeclaration
  refine bindS (assertCheck_ren _ _ _) ?_
  intro _ hk
  repeat rs
  refine bindE (e.call _ _ (by assumption) (e.kept_object hn hc (kind_of_check hk))) ?_
  intro _ _
  repeat rs
  all_goals fin

theorem triggerEvent_ren (e : E root τ cfg cfg' rec rec') (hn : In root n) :
    triggerEvent rec' (n.ren τ) = (triggerEvent rec n).map (Prog.ren τ) := by
  unfold triggerEvent
  repeat rs
  all_goals fin

theorem triggerBody_ren (e : E root τ cfg cfg' rec rec') (hn : In root n) :
    triggerBody rec' (n.ren τ) = (triggerBody rec n).map (Prog.ren τ) := by
  unfold triggerBody
  repeat rs
  all_goals fin

theorem queryExpression_ren (e : E root τ cfg cfg' rec rec') (hn : In root n) :
    queryExpression rec' (n.ren τ) = (queryExpression rec n).map (Prog.ren τ) := by
  unfold queryExpression
  rs
  refine bindE (f := Prog.ren τ) ?_ ?_
  · ckK "soql_query_body"
    · repeat rs
    · repeat rs
  intro _ _
  repeat rs
  all_goals fin

theorem soslQueryBody_ren (e : E root τ cfg cfg' rec rec') (hn : In root n) :
    soslQueryBody rec' (n.ren τ) = (soslQueryBody rec n).map (Prog.ren τ) := by
  unfold soslQueryBody
  repeat rs
  all_goals fin

theorem findClause_ren (e : E root τ cfg cfg' rec rec') (hn : In root n) :
    findClause rec' (n.ren τ) = (findClause rec n).map (Prog.ren τ) := by
  unfold findClause
  rs
  ckK "bound_apex_expression"
  · repeat rs
    all_goals fin
  · repeat rs
    all_goals fin

theorem inClause_ren (e : E root τ cfg cfg' rec rec') (hn : In root n) :
    inClause rec' (n.ren τ) = (inClause rec n).map (Prog.ren τ) := by
  unfold inClause
  repeat rs
  all_goals fin

theorem returningClause_ren (e : E root τ cfg cfg' rec rec') (hn : In root n) :
    returningClause rec' (n.ren τ) = (returningClause rec n).map (Prog.ren τ) := by
  unfold returningClause
  repeat rs
  all_goals fin

theorem sObjectReturn_ren (e : E root τ cfg cfg' rec rec') (hn : In root n) :
    sObjectReturn rec' (n.ren τ) = (sObjectReturn rec n).map (Prog.ren τ) := by
  unfold sObjectReturn
  rs
  refine bindE (f := Prog.rens τ) ?_ ?_
  · ckK "selected_fields"
    · refine okE ?_
      rw [Prog.rens]
    · repeat rs
      all_goals fin
  intro _ _
  repeat rs
  all_goals fin

theorem soqlQueryBody_ren (e : E root τ cfg cfg' rec rec') (hn : In root n) :
    soqlQueryBody rec' (n.ren τ) = (soqlQueryBody rec n).map (Prog.ren τ) := by
  unfold soqlQueryBody
  repeat rs
  all_goals fin

theorem fromClause_ren (e : E root τ cfg cfg' rec rec') (hn : In root n) :
    fromClause rec' (n.ren τ) = (fromClause rec n).map (Prog.ren τ) := by
  unfold fromClause
  repeat rs
  all_goals fin

theorem storageAlias_ren (e : E root τ cfg cfg' rec rec') (hn : In root n) :
    storageAlias rec' (n.ren τ) = (storageAlias rec n).map (Prog.ren τ) := by
  unfold storageAlias
  repeat rs
  all_goals fin

theorem limitClause_ren (e : E root τ cfg cfg' rec rec') (hn : In root n) :
    limitClause rec' (n.ren τ) = (limitClause rec n).map (Prog.ren τ) := by
  unfold limitClause
  repeat rs
  all_goals fin

theorem updateClause_ren (e : E root τ cfg cfg' rec rec') (hn : In root n) :
    updateClause rec' (n.ren τ) = (updateClause rec n).map (Prog.ren τ) := by
  unfold updateClause
  repeat rs
  all_goals fin

theorem boundApexExpression_ren (e : E root τ cfg cfg' rec rec') (hn : In root n) :
    boundApexExpression rec' (n.ren τ) = (boundApexExpression rec n).map (Prog.ren τ) := by
  unfold boundApexExpression
  repeat rs
  all_goals fin

theorem soslUsingClause_ren (e : E root τ cfg cfg' rec rec') (hn : In root n) :
    soslUsingClause rec' (n.ren τ) = (soslUsingClause rec n).map (Prog.ren τ) := by
  unfold soslUsingClause
  repeat rs
  all_goals fin

theorem usingSearch_ren (e : E root τ cfg cfg' rec rec') (hn : In root n) :
    usingSearch (n.ren τ) = (usingSearch n).map (Prog.ren τ) := by
  unfold usingSearch
  repeat rs
  all_goals fin

theorem usingClause_ren (e : E root τ cfg cfg' rec rec') (hn : In root n) :
    usingClause rec' (n.ren τ) = (usingClause rec n).map (Prog.ren τ) := by
  unfold usingClause
  repeat rs
  all_goals fin

theorem usingClauseOption_ren (e : E root τ cfg cfg' rec rec') (hn : In root n) :
    usingClauseOption rec' (n.ren τ) = (usingClauseOption rec n).map (Prog.ren τ) := by
  unfold usingClauseOption
  repeat rs
  all_goals fin

theorem usingScopeClause_ren (e : E root τ cfg cfg' rec rec') (hn : In root n) :
    usingScopeClause rec' (n.ren τ) = (usingScopeClause rec n).map (Prog.ren τ) := by
  unfold usingScopeClause
  repeat rs
  all_goals fin

theorem usingLookupClause_ren (e : E root τ cfg cfg' rec rec') (hn : In root n) :
    usingLookupClause rec' (n.ren τ) = (usingLookupClause rec n).map (Prog.ren τ) := by
  unfold usingLookupClause
  repeat rs
  all_goals fin

theorem usingListviewClause_ren (e : E root τ cfg cfg' rec rec') (hn : In root n) :
    usingListviewClause rec' (n.ren τ) = (usingListviewClause rec n).map (Prog.ren τ) := by
  unfold usingListviewClause
  repeat rs
  all_goals fin

theorem usingLookupBindClause_ren (e : E root τ cfg cfg' rec rec') (hn : In root n) :
    usingLookupBindClause rec' (n.ren τ) = (usingLookupBindClause rec n).map (Prog.ren τ) := by
  unfold usingLookupBindClause
  repeat rs
  all_goals fin

theorem usingLookupBindExpression_ren (e : E root τ cfg cfg' rec rec') (hn : In root n) :
    usingLookupBindExpression rec' (n.ren τ) = (usingLookupBindExpression rec n).map (Prog.ren τ) := by
  unfold usingLookupBindExpression
  refine bindS (assertCheck_ren _ _ _) ?_
  intro _ hk
  rs
  rs
  refine bindE (loc_cByN _ _ _) ?_
  intro c h
  refine bindE (e.call _ _ (in_cByN hn h) ?_) ?_
  · show literalParents.contains _ = true
    rw [pkind_child (child_tryCByN (try_of_cByN h)), kind_of_check hk]
    rfl
  intro _ _
  fin

theorem whereClause_ren (e : E root τ cfg cfg' rec rec') (hn : In root n) :
    whereClause rec' (n.ren τ) = (whereClause rec n).map (Prog.ren τ) := by
  unfold whereClause
  repeat rs
  all_goals fin

theorem comparison_ren (e : E root τ cfg cfg' rec rec') (hn : In root n) (hp : K τ .comparison n) :
    comparison rec' (n.ren τ) = (comparison rec n).map (Prog.ren τ) := by
  unfold comparison
  ckK "value_comparison_operator"
  · ckK "set_comparison_operator"
    · exact errE
    · have hv := kept_value (e.kept_tryCByK hK hn (by decide))
      repeat rs
      refine okE ?_
      rw [hv]
      docs
  · have hv := kept_value (e.kept_tryCByK hK hn (by decide))
    refine bindE (loc_nextNamed _ _) ?_
    intro c hc
    have hi := in_nextNamed hx hc
    refine bindE (f := Prog.ren τ) ?_ ?_
    · refine iteE (by simp only [loc_kind]) ?_ ?_ <;> intro _
      · rs
      · refine e.call _ _ hi ?_
        show literalParents.contains _ = true
        rw [pkind_next hc, pkind_child (child_tryCByK hK)]
        exact hp
    intro _ _
    refine okE ?_
    rw [hv]
    docs

theorem comparisonExpression_ren (e : E root τ cfg cfg' rec rec') (hn : In root n) :
    comparisonExpression rec' (n.ren τ) = (comparisonExpression rec n).map (Prog.ren τ) := by
  unfold comparisonExpression
  refine bindS (assertCheck_ren _ _ _) ?_
  intro _ hk
  rs
  rs
  refine bindE (e.call _ _ hn ?_) ?_
  · show literalParents.contains _ = true
    rw [kind_of_check hk]
    rfl
  intro _ _
  fin

theorem comparableList_ren (e : E root τ cfg cfg' rec rec') (hn : In root n) (hp : K τ .comparableList n) :
    comparableList rec' (n.ren τ) = (comparableList rec n).map (Prog.ren τ) := by
  unfold comparableList
  refine bindE (e.mapV hn ?_) ?_
  · intro l hl
    show literalParents.contains _ = true
    rw [pkind_child (child_vec hl)]
    exact hp
  intro _ _
  fin

theorem orderByClause_ren (e : E root τ cfg cfg' rec rec') (hn : In root n) :
    orderByClause rec' (n.ren τ) = (orderByClause rec n).map (Prog.ren τ) := by
  unfold orderByClause
  repeat rs
  all_goals fin

theorem orderExpression_ren (e : E root τ cfg cfg' rec rec') (hn : In root n) :
    orderExpression rec' (n.ren τ) = (orderExpression rec n).map (Prog.ren τ) := by
  unfold orderExpression
  repeat rs
  all_goals fin

theorem subQuery_ren (e : E root τ cfg cfg' rec rec') (hn : In root n) :
    subQuery rec' (n.ren τ) = (subQuery rec n).map (Prog.ren τ) := by
  unfold subQuery
  repeat rs
  all_goals fin

theorem mapCreationExpression_ren (e : E root τ cfg cfg' rec rec') (hn : In root n) :
    mapCreationExpression rec' (n.ren τ) = (mapCreationExpression rec n).map (Prog.ren τ) := by
  unfold mapCreationExpression
  repeat rs
  all_goals fin

theorem mapInitializer_ren (e : E root τ cfg cfg' rec rec') (hn : In root n) :
    mapInitializer rec' (n.ren τ) = (mapInitializer rec n).map (Prog.ren τ) := by
  unfold mapInitializer
  repeat rs
  all_goals fin

theorem mapKeyInitializer_ren (e : E root τ cfg cfg' rec rec') (hn : In root n) :
    mapKeyInitializer rec' (n.ren τ) = (mapKeyInitializer rec n).map (Prog.ren τ) := by
  unfold mapKeyInitializer
  rs
  rw [loc_childrenVec]
  have hv := fun l hl => in_vec (root := root) (l := n) (c := l) hn hl
  revert hv
  generalize n.childrenVec = ls
  intro hv
  rcases ls with _ | ⟨a, _ | ⟨b, _ | ⟨c, cs⟩⟩⟩
  · exact errE
  · exact errE
  · have h1 := hv a (by simp)
    have h2 := hv b (by simp)
    simp only [List.map_cons, List.map_nil]
    repeat rs
    all_goals fin
  · exact errE

theorem groupByClause_ren (e : E root τ cfg cfg' rec rec') (hn : In root n) :
    groupByClause rec' (n.ren τ) = (groupByClause rec n).map (Prog.ren τ) := by
  unfold groupByClause
  rs
  simp only [loc_childrenVec]
  rw [filter_ren τ (p := fun c => c.kind != "having_clause") (fun l => by rw [loc_kind]),
    filter_ren τ (p := fun c => c.kind == "having_clause") (fun l => by rw [loc_kind])]
  refine iteE ?_ ?_ ?_ <;> intros
  · rw [List.all_map]
    simp only [Function.comp_def, loc_kind]
  · refine bindE (f := Prog.rens τ) ?_ ?_
    · rw [rens_fun]
      exact mapE (fun l hl => e.dispatch (in_vec hn (List.mem_filter.mp hl).1) (by decide))
    intro es _
    refine bindE (e.mapL (fun l hl => in_vec hn (List.mem_filter.mp hl).1) (by intro _ _; kk)) ?_
    intro hs _
    refine okE ?_
    rw [rens_eq τ hs, List.getLast?_map]
    cases hs.getLast? <;> docs
  · exact errE

theorem havingClause_ren (e : E root τ cfg cfg' rec rec') (hn : In root n) :
    havingClause rec' (n.ren τ) = (havingClause rec n).map (Prog.ren τ) := by
  unfold havingClause
  repeat rs
  all_goals fin

theorem soslWithClause_ren (e : E root τ cfg cfg' rec rec') (hn : In root n) :
    soslWithClause rec' (n.ren τ) = (soslWithClause rec n).map (Prog.ren τ) := by
  unfold soslWithClause
  repeat rs
  all_goals fin

theorem soqlWithClause_ren (e : E root τ cfg cfg' rec rec') (hn : In root n) :
    soqlWithClause rec' (n.ren τ) = (soqlWithClause rec n).map (Prog.ren τ) := by
  unfold soqlWithClause
  repeat rs
  all_goals fin

theorem soqlWithTypeVariant_ren (e : E root τ cfg cfg' rec rec') (hn : In root n) (hk : K τ .soqlWithTypeVariant n) :
    soqlWithTypeVariant rec' (n.ren τ) = (soqlWithTypeVariant rec n).map (Prog.ren τ) := by
  unfold soqlWithTypeVariant
  refine iteE (by simp only [loc_namedChildren, List.isEmpty_map]) ?_ ?_ <;> intro h
  · exact e.call _ _ hn (e.kept hn (shown_leaf hk h) (by rw [Loc.letters, hk]; simp [lettersOf]))
  repeat rs
  all_goals fin

theorem soslWithType_ren (e : E root τ cfg cfg' rec rec') (hn : In root n) :
    soslWithType rec' (n.ren τ) = (soslWithType rec n).map (Prog.ren τ) := by
  unfold soslWithType
  repeat rs
  all_goals fin

theorem withDataCatExpression_ren (e : E root τ cfg cfg' rec rec') (hn : In root n) :
    withDataCatExpression rec' (n.ren τ) = (withDataCatExpression rec n).map (Prog.ren τ) := by
  unfold withDataCatExpression
  repeat rs
  all_goals fin

theorem withDataCatFilter_ren (e : E root τ cfg cfg' rec rec') (hn : In root n) :
    withDataCatFilter rec' (n.ren τ) = (withDataCatFilter rec n).map (Prog.ren τ) := by
  unfold withDataCatFilter
  rs
  refine bindE (loc_csByK _ _ _) ?_
  intro is his
  have hv := fun c hc => e.kept_cs (c := c) his hc hn (by decide)
  have hi := fun c => in_csByK (c := c) hn his
  rcases is with _ | ⟨a, _ | ⟨b, bs⟩⟩
  · exact errE
  · exact errE
  simp only [List.map_cons]
  refine bindE (e.call _ _ (hi a (by simp)) (hv a (by simp))) ?_
  intro _ _
  refine bindE (f := Prog.rens τ) ?_ ?_
  · exact e.mapL (ls := b :: bs) (fun l hl => hi l (.tail _ hl)) (fun l hl => hv l (.tail _ hl))
  intro ds _
  repeat rs
  refine okE ?_
  rcases ds with _ | ⟨d, _ | ⟨d', ds⟩⟩ <;> docs

theorem withDivisionExpression_ren (e : E root τ cfg cfg' rec rec') (hn : In root n) :
    withDivisionExpression rec' (n.ren τ) = (withDivisionExpression rec n).map (Prog.ren τ) := by
  unfold withDivisionExpression
  rs
  rs
  rs
  · repeat rs
    all_goals fin
  refine iteE (by simp only [loc_kind]) ?_ ?_ <;> intro h
  · rw [kept_value (e.kept_kind this h (by decide))]
    all_goals fin
  · exact errE

theorem withSnippetExpression_ren (e : E root τ cfg cfg' rec rec') (hn : In root n) :
    withSnippetExpression rec' (n.ren τ) = (withSnippetExpression rec n).map (Prog.ren τ) := by
  unfold withSnippetExpression
  repeat rs
  all_goals fin

theorem withNetworkExpression_ren (e : E root τ cfg cfg' rec rec') (hn : In root n) :
    withNetworkExpression rec' (n.ren τ) = (withNetworkExpression rec n).map (Prog.ren τ) := by
  unfold withNetworkExpression
  refine bindS (assertCheck_ren _ _ _) ?_
  intro _ hk
  refine bindE (e.call _ _ hn ?_) ?_
  · show literalParents.contains _ = true
    rw [kind_of_check hk]
    rfl
  intro _ _
  fin

theorem withMetadataExpression_ren (e : E root τ cfg cfg' rec rec') (hn : In root n) :
    withMetadataExpression rec' (n.ren τ) = (withMetadataExpression rec n).map (Prog.ren τ) := by
  unfold withMetadataExpression
  repeat rs
  all_goals fin

theorem withSpellCorrectionExpression_ren (e : E root τ cfg cfg' rec rec') (hn : In root n) :
    withSpellCorrectionExpression rec' (n.ren τ) = (withSpellCorrectionExpression rec n).map (Prog.ren τ) := by
  unfold withSpellCorrectionExpression
  refine bindS (assertCheck_ren _ _ _) ?_
  intro _ hk
  refine bindE (loc_cByK _ _ _) ?_
  intro c hc
  have hi := in_cByK hn hc
  refine bindE (e.call _ _ hi (e.kept_literal hi ?_ ?_)) ?_
  · rw [kind_tryCByK (try_of_cByK hc)]; rfl
  · rw [pkind_child (child_tryCByK (try_of_cByK hc)), kind_of_check hk]; rfl
  intro _ _
  fin

theorem withPriceBookExpression_ren (e : E root τ cfg cfg' rec rec') (hn : In root n) :
    withPriceBookExpression rec' (n.ren τ) = (withPriceBookExpression rec n).map (Prog.ren τ) := by
  unfold withPriceBookExpression
  repeat rs
  all_goals fin

theorem dottedIdentifier_ren (e : E root τ cfg cfg' rec rec') (hn : In root n) :
    dottedIdentifier rec' (n.ren τ) = (dottedIdentifier rec n).map (Prog.ren τ) := by
  unfold dottedIdentifier
  repeat rs
  all_goals fin

theorem valueNode_ren (hk : K τ .valueNode n) : valueNode (n.ren τ) = (valueNode n).map (Prog.ren τ) := by
  unfold valueNode
  rw [kept_value hk]
  all_goals fin

theorem valueNodeLowerCase_ren (hk : K τ .valueNodeLowerCase n) : valueNodeLowerCase (n.ren τ) = (valueNodeLowerCase n).map (Prog.ren τ) := by
  unfold valueNodeLowerCase
  rw [show toLower (n.ren τ).value = toLower n.value from (congrArg toLower (loc_value τ n)).trans hk]
  all_goals fin

theorem valueNodeUpperCase_ren (hk : K τ .valueNodeUpperCase n) : valueNodeUpperCase (n.ren τ) = (valueNodeUpperCase n).map (Prog.ren τ) := by
  unfold valueNodeUpperCase
  rw [show toUpper (n.ren τ).value = toUpper n.value from (congrArg toUpper (loc_value τ n)).trans hk]
  all_goals fin

theorem expressionStatement_ren (e : E root τ cfg cfg' rec rec') (hn : In root n) :
    expressionStatement rec' (n.ren τ) = (expressionStatement rec n).map (Prog.ren τ) := by
  unfold expressionStatement
  repeat rs
  all_goals fin

theorem safeNavigationOperator_ren (e : E root τ cfg cfg' rec rec') (hn : In root n) :
    safeNavigationOperator (n.ren τ) = (safeNavigationOperator n).map (Prog.ren τ) := by
  unfold safeNavigationOperator
  repeat rs
  all_goals fin

theorem countExpression_ren (e : E root τ cfg cfg' rec rec') (hn : In root n) :
    countExpression rec' (n.ren τ) = (countExpression rec n).map (Prog.ren τ) := by
  unfold countExpression
  repeat rs
  all_goals fin

theorem wrapper_ren (kind : String) (variant : Cls) (e : E root τ cfg cfg' rec rec') (hn : In root n) (hk : n.kind = kind → K τ variant n) :
    wrapper rec' kind variant (n.ren τ) = (wrapper rec kind variant n).map (Prog.ren τ) := by
  unfold wrapper
  refine bindS (assertCheck_ren _ _ _) ?_
  intro _ ha
  refine bindE (e.call _ _ hn (hk (kind_of_check ha))) ?_
  intro _ _
  all_goals fin

theorem forClause_ren (e : E root τ cfg cfg' rec rec') (hn : In root n) :
    forClause rec' (n.ren τ) = (forClause rec n).map (Prog.ren τ) := by
  unfold forClause
  repeat rs
  all_goals fin

theorem allRowsClause_ren (e : E root τ cfg cfg' rec rec') (hn : In root n) :
    allRowsClause (n.ren τ) = (allRowsClause n).map (Prog.ren τ) := by
  unfold allRowsClause
  repeat rs
  all_goals fin

theorem dmlType_ren (e : E root τ cfg cfg' rec rec') (hn : In root n) :
    dmlType rec' (n.ren τ) = (dmlType rec n).map (Prog.ren τ) := by
  unfold dmlType
  repeat rs
  all_goals fin

theorem booleanExpression_ren (e : E root τ cfg cfg' rec rec') (hn : In root n) :
    booleanExpression rec' (n.ren τ) = (booleanExpression rec n).map (Prog.ren τ) := by
  unfold booleanExpression
  repeat rs
  all_goals fin

theorem conditionExpression_ren (parentOp : Option String) (e : E root τ cfg cfg' rec rec') (hn : In root n) :
    conditionExpression rec' parentOp (n.ren τ) = (conditionExpression rec parentOp n).map (Prog.ren τ) := by
  unfold conditionExpression
  rs
  · rs
  rs
  refine okE ?_
  rw [boolOperator_ren]
  docs

theorem andExpression_ren (e : E root τ cfg cfg' rec rec') (hn : In root n) :
    andExpression rec' (n.ren τ) = (andExpression rec n).map (Prog.ren τ) := by
  unfold andExpression
  rs
  refine bindE (f := Prog.rens τ) ?_ ?_
  · rw [rens_fun, loc_childrenVec]
    exact mapE (fun l hl => conditionExpression_ren _ e (in_vec hn hl))
  intro _ _
  all_goals fin

theorem orExpression_ren (e : E root τ cfg cfg' rec rec') (hn : In root n) :
    orExpression rec' (n.ren τ) = (orExpression rec n).map (Prog.ren τ) := by
  unfold orExpression
  rs
  refine bindE (f := Prog.rens τ) ?_ ?_
  · rw [rens_fun, loc_childrenVec]
    exact mapE (fun l hl => conditionExpression_ren _ e (in_vec hn hl))
  intro _ _
  all_goals fin

theorem notExpression_ren (e : E root τ cfg cfg' rec rec') (hn : In root n) :
    notExpression rec' (n.ren τ) = (notExpression rec n).map (Prog.ren τ) := by
  unfold notExpression
  repeat rs
  refine bindE (conditionExpression_ren _ e (by assumption)) ?_
  intro _ _
  all_goals fin

theorem rootMember_ren (e : E root τ cfg cfg' rec rec') (hn : In root n) :
    rootMember rec' (n.ren τ) = (rootMember rec n).map (Prog.ren τ) := by
  unfold rootMember
  repeat rs
  all_goals fin

theorem classMember_ren (e : E root τ cfg cfg' rec rec') (hn : In root n) :
    classMember rec' (n.ren τ) = (classMember rec n).map (Prog.ren τ) := by
  unfold classMember
  repeat rs
  all_goals fin

theorem unannotatedType_ren (e : E root τ cfg cfg' rec rec') (hn : In root n) :
    unannotatedType rec' (n.ren τ) = (unannotatedType rec n).map (Prog.ren τ) := by
  unfold unannotatedType
  repeat rs
  all_goals fin

theorem simpleType_ren (e : E root τ cfg cfg' rec rec') (hn : In root n) :
    simpleType rec' (n.ren τ) = (simpleType rec n).map (Prog.ren τ) := by
  unfold simpleType
  repeat rs
  all_goals fin

theorem variableInitializer_ren (e : E root τ cfg cfg' rec rec') (hn : In root n) :
    variableInitializer rec' (n.ren τ) = (variableInitializer rec n).map (Prog.ren τ) := by
  unfold variableInitializer
  repeat rs
  all_goals fin

theorem expression_ren (e : E root τ cfg cfg' rec rec') (hn : In root n) :
    expression rec' (n.ren τ) = (expression rec n).map (Prog.ren τ) := by
  unfold expression
  repeat rs
  all_goals fin

theorem primaryExpression_ren (e : E root τ cfg cfg' rec rec') (hn : In root n) :
    primaryExpression rec' (n.ren τ) = (primaryExpression rec n).map (Prog.ren τ) := by
  unfold primaryExpression
  repeat rs
  all_goals fin

theorem classLiteral_ren (e : E root τ cfg cfg' rec rec') (hn : In root n) :
    classLiteral rec' (n.ren τ) = (classLiteral rec n).map (Prog.ren τ) := by
  unfold classLiteral
  repeat rs
  all_goals fin

theorem literal_ren (e : E root τ cfg cfg' rec rec') (hn : In root n) :
    literal rec' (n.ren τ) = (literal rec n).map (Prog.ren τ) := by
  unfold literal
  repeat rs
  all_goals fin

theorem keyword_ren (tbl : List (String × String)) : keyword tbl (n.ren τ) = (keyword tbl n).map (Prog.ren τ) := by
  unfold keyword
  rw [loc_kind]
  cases tbl.find? (fun e => e.1 == n.kind) with
  | none => rfl
  | some x => refine okE ?_; docs

theorem modifierKind_ren : modifierKind (n.ren τ) = (modifierKind n).map (Prog.ren τ) := keyword_ren _

theorem statement_ren (e : E root τ cfg cfg' rec rec') (hn : In root n) :
    statement rec' (n.ren τ) = (statement rec n).map (Prog.ren τ) := by
  unfold statement
  repeat rs
  all_goals fin

theorem type_ren (e : E root τ cfg cfg' rec rec') (hn : In root n) :
    type rec' (n.ren τ) = (type rec n).map (Prog.ren τ) := by
  unfold type
  repeat rs
  all_goals fin

theorem annotationArgumentList_ren (e : E root τ cfg cfg' rec rec') (hn : In root n) (hk : K τ .annotationArgumentList n) :
    annotationArgumentList rec' (n.ren τ) = (annotationArgumentList rec n).map (Prog.ren τ) := by
  unfold annotationArgumentList
  refine iteE (by simp only [loc_namedChildren, List.isEmpty_map]) ?_ ?_ <;> intro _
  · fin
  refine iteE (by simp only [loc_tryCsByK, List.isEmpty_map]) ?_ ?_ <;> intro _
  · refine bindE (loc_cByN _ _ _) ?_
    intro v hv
    refine bindE (e.call _ _ (in_cByN hn hv) (e.kept_annotation hn hv (.inr hk))) ?_
    intro _ _
    all_goals fin
  repeat rs
  all_goals fin

theorem triggerEventVariant_ren : triggerEventVariant (n.ren τ) = (triggerEventVariant n).map (Prog.ren τ) := keyword_ren _

theorem selectClauseVariant_ren (e : E root τ cfg cfg' rec rec') (hn : In root n) :
    selectClauseVariant rec' (n.ren τ) = (selectClauseVariant rec n).map (Prog.ren τ) := by
  unfold selectClauseVariant
  rs
  refine bindE (f := Prog.ren τ) ?_ ?_
  · ckK "count_expression"
    · repeat rs
      all_goals fin
    · repeat rs
  intro _ _
  all_goals fin

theorem selectableExpression_ren (e : E root τ cfg cfg' rec rec') (hn : In root n) :
    selectableExpression rec' (n.ren τ) = (selectableExpression rec n).map (Prog.ren τ) := by
  unfold selectableExpression
  repeat rs
  all_goals fin

theorem fieldsExpression_ren (e : E root τ cfg cfg' rec rec') (hn : In root n) :
    fieldsExpression rec' (n.ren τ) = (fieldsExpression rec n).map (Prog.ren τ) := by
  unfold fieldsExpression
  repeat rs
  all_goals fin

theorem aliasExpression_ren (e : E root τ cfg cfg' rec rec') (hn : In root n) :
    aliasExpression rec' (n.ren τ) = (aliasExpression rec n).map (Prog.ren τ) := by
  unfold aliasExpression
  repeat rs
  all_goals fin

theorem fieldIdentifierVariant_ren (e : E root τ cfg cfg' rec rec') (hn : In root n) :
    fieldIdentifierVariant rec' (n.ren τ) = (fieldIdentifierVariant rec n).map (Prog.ren τ) := by
  unfold fieldIdentifierVariant
  repeat rs
  all_goals fin

theorem storageVariant_ren (e : E root τ cfg cfg' rec rec') (hn : In root n) :
    storageVariant rec' (n.ren τ) = (storageVariant rec n).map (Prog.ren τ) := by
  unfold storageVariant
  repeat rs
  all_goals fin

theorem storageIdentifierVariant_ren (e : E root τ cfg cfg' rec rec') (hn : In root n) :
    storageIdentifierVariant rec' (n.ren τ) = (storageIdentifierVariant rec n).map (Prog.ren τ) := by
  unfold storageIdentifierVariant
  repeat rs
  all_goals try (repeat rs)
  all_goals first | fin | exact errE

theorem limitValue_ren (e : E root τ cfg cfg' rec rec') (hn : In root n) :
    limitValue rec' (n.ren τ) = (limitValue rec n).map (Prog.ren τ) := by
  unfold limitValue
  repeat rs
  all_goals fin

theorem valueExpression_ren (e : E root τ cfg cfg' rec rec') (hn : In root n) :
    valueExpression rec' (n.ren τ) = (valueExpression rec n).map (Prog.ren τ) := by
  unfold valueExpression
  repeat rs
  all_goals fin

theorem geoLocationTypeVariant_ren (e : E root τ cfg cfg' rec rec') (hn : In root n) :
    geoLocationTypeVariant rec' (n.ren τ) = (geoLocationTypeVariant rec n).map (Prog.ren τ) := by
  unfold geoLocationTypeVariant
  rs
  rs
  · rs
  rs
  · rs
  rs
  · refine bindE (loc_csByK _ _ _) ?_
    intro ds hds
    have hv := fun c hc => e.kept_cs (c := c) hds hc hn (by decide)
    have hj := fun c => in_csByK (c := c) hn hds
    rcases ds with _ | ⟨a, _ | ⟨b, _ | ⟨c, cs⟩⟩⟩
    · exact errE
    · exact errE
    · simp only [List.map_cons, List.map_nil]
      rs
      refine bindE (e.call _ _ (hj a (by simp)) (hv a (by simp))) ?_
      intro _ _
      refine bindE (e.call _ _ (hj b (by simp)) (hv b (by simp))) ?_
      intro _ _
      all_goals fin
    · exact errE
  · exact errE

theorem soqlLiteral_ren (e : E root τ cfg cfg' rec rec') (hn : In root n) (hp : K τ .soqlLiteral n) :
    soqlLiteral rec' (n.ren τ) = (soqlLiteral rec n).map (Prog.ren τ) := by
  unfold soqlLiteral
  rw [dispatch, loc_kind, dispatch]
  split
  · rename_i x hf
    refine e.call x.2 n hn ?_
    have hk : x.1 = n.kind := by simpa using List.find?_some hf
    have hx := List.mem_of_find?_eq_some hf
    simp only [List.mem_cons, List.not_mem_nil, or_false] at hx
    rcases hx with rfl | rfl | rfl | rfl | rfl | rfl | rfl | rfl
    all_goals first
      | exact trivial
      | exact e.kept_literal hn (by rw [← hk]; rfl) hp
  · exact errE

theorem dateLiteralWithParam_ren (e : E root τ cfg cfg' rec rec') (hn : In root n) :
    dateLiteralWithParam (n.ren τ) = (dateLiteralWithParam n).map (Prog.ren τ) := by
  unfold dateLiteralWithParam
  refine bindS (assertCheck_ren _ _ _) ?_
  intro _ hk
  have hd : ((n.ren τ).cvalueByK "date_literal").map toUpper = (n.cvalueByK "date_literal").map toUpper := by
    rw [Loc.cvalueByK, loc_tryCByK, Loc.cvalueByK]
    cases hc : n.tryCByK "date_literal" with
    | none => rfl
    | some c =>
      exact congrArg Except.ok ((congrArg toUpper (loc_value τ c)).trans
        (e.kept_capital (in_tryCByK hn hc) (.inr ⟨kind_tryCByK hc, (pkind_child (child_tryCByK hc)).trans (kind_of_check hk)⟩)))
  cases hx : n.cvalueByK "date_literal" with
  | error x =>
    rw [hx] at hd
    cases hx' : (n.ren τ).cvalueByK "date_literal" with
    | error y => rw [hx'] at hd; cases hd; rfl
    | ok y => rw [hx'] at hd; cases hd
  | ok x =>
    rw [hx] at hd
    cases hx' : (n.ren τ).cvalueByK "date_literal" with
    | error y => rw [hx'] at hd; cases hd
    | ok y =>
      rw [hx'] at hd
      have hd' : toUpper y = toUpper x := Except.ok.inj hd
      show (do let p ← (n.ren τ).cvalueByK "int"; Except.ok (bwcp (n.ren τ) [.txt (toUpper y ++ ':' :: p)])) =
        Except.map (Prog.ren τ) (do let p ← n.cvalueByK "int"; Except.ok (bwcp n [.txt (toUpper x ++ ':' :: p)]))
      rw [hd']
      rs
      fin

theorem setValue_ren (e : E root τ cfg cfg' rec rec') (hn : In root n) :
    setValue rec' (n.ren τ) = (setValue rec n).map (Prog.ren τ) := by
  unfold setValue
  repeat rs
  all_goals fin

theorem comparableListValue_ren (e : E root τ cfg cfg' rec rec') (hn : In root n) (hp : K τ .comparableListValue n) :
    comparableListValue rec' (n.ren τ) = (comparableListValue rec n).map (Prog.ren τ) := by
  unfold comparableListValue
  rs
  · rs
  · exact e.call _ _ hn hp

theorem offsetClause_ren (e : E root τ cfg cfg' rec rec') (hn : In root n) :
    offsetClause rec' (n.ren τ) = (offsetClause rec n).map (Prog.ren τ) := by
  unfold offsetClause
  repeat rs
  all_goals fin

theorem functionExpressionVariant_ren (e : E root τ cfg cfg' rec rec') (hn : In root n) :
    functionExpressionVariant rec' (n.ren τ) = (functionExpressionVariant rec n).map (Prog.ren τ) := by
  unfold functionExpressionVariant
  rs
  ckK "geo_location_type"
  · rs
    rs
    refine bindE (f := Prog.rens τ) ?_ ?_
    · rw [loc_childrenVec, ← List.map_drop]
      exact e.mapL (fun l hl => in_vec hn (List.mem_of_mem_drop hl)) (by intro _ _; kk)
    intro _ _
    all_goals fin
  · repeat rs
    all_goals fin

/-- One constructor call on the image of a tree. -/
theorem step_ren (e : E root τ cfg cfg' rec rec') (c : Cls) (hn : In root n) (hk : K τ c n) :
    Prog.step cfg' rec' c (n.ren τ) = (Prog.step cfg rec c n).map (Prog.ren τ) := by
  cases c with
  | root => exact root_ren e hn
  | classDeclaration => exact classDeclaration_ren e hn
  | methodDeclaration => exact methodDeclaration_ren e hn
  | formalParameters => exact formalParameters_ren e hn
  | formalParameter => exact formalParameter_ren e hn
  | superClass => exact superClass_ren e hn
  | modifiers => exact modifiers_ren e hn
  | modifier => exact modifier_ren e hn
  | annotation => exact annotation_ren e hn
  | annotationKeyValue => exact annotationKeyValue_ren e hn
  | classBody => exact classBody_ren e hn
  | fieldDeclaration => exact fieldDeclaration_ren e hn
  | arrayInitializer => exact arrayInitializer_ren e hn
  | assignmentExpression => exact assignmentExpression_ren e hn
  | assignmentLeft => exact assignmentLeft_ren e hn
  | boolType => exact boolType_ren e hn
  | block => exact block_ren e hn
  | interface => exact interface_ren e hn
  | typeList => exact typeList_ren e hn
  | objectExpression => exact objectExpression_ren e hn
  | methodInvocation => exact methodInvocation_ren e hn
  | typeArguments => exact typeArguments_ren e hn
  | argumentList => exact argumentList_ren e hn
  | super => exact super_ren e hn
  | this => exact this_ren e hn
  | binaryExpression => exact binaryExpression_ren e hn
  | localVariableDeclaration => exact localVariableDeclaration_ren e hn
  | variableDeclarator => exact variableDeclarator_ren e hn
  | genericType => exact genericType_ren e hn
  | ifStatement => exact ifStatement_ren e hn
  | parenthesizedExpression => exact parenthesizedExpression_ren e hn
  | forInitOption => exact forInitOption_ren e hn
  | forStatement => exact forStatement_ren e hn
  | enhancedForStatement => exact enhancedForStatement_ren e hn
  | updateExpressionVariant => exact updateExpressionVariant_ren e hn
  | scopedTypeIdentifier => exact scopedTypeIdentifier_ren e hn
  | constructorDeclaration => exact constructorDeclaration_ren e hn hk
  | constructorBody => exact constructorBody_ren e hn hk
  | constructInvocation => exact constructInvocation_ren e hn
  | typeParameters => exact typeParameters_ren e hn
  | typeParameter => exact typeParameter_ren e hn
  | objectCreationExpression => exact objectCreationExpression_ren e hn
  | runAsStatement => exact runAsStatement_ren e hn
  | doStatement => exact doStatement_ren e hn
  | whileStatement => exact whileStatement_ren e hn
  | unaryExpression => exact unaryExpression_ren e hn
  | fieldAccess => exact fieldAccess_ren e hn
  | fieldOption => exact fieldOption_ren e hn hk
  | enumDeclaration => exact enumDeclaration_ren e hn
  | enumBody => exact enumBody_ren e hn
  | enumConstant => exact enumConstant_ren e hn
  | dmlExpressionVariant => exact dmlExpressionVariant_ren e hn
  | dmlSecurityMode => exact dmlSecurityMode_ren e hn
  | dmlTypeVariant => exact dmlTypeVariant_ren e hn
  | arrayAccess => exact arrayAccess_ren e hn
  | arrayCreationExpression => exact arrayCreationExpression_ren e hn
  | dimensions => exact dimensions_ren e hn
  | dimensionsExpr => exact dimensionsExpr_ren e hn
  | returnStatement => exact returnStatement_ren e hn
  | ternaryExpression => exact ternaryExpression_ren e hn
  | tryStatement => exact tryStatement_ren e hn
  | catchClause => exact catchClause_ren e hn
  | finallyClause => exact finallyClause_ren e hn
  | staticInitializer => exact staticInitializer_ren e hn
  | interfaceDeclaration => exact interfaceDeclaration_ren e hn
  | extendsInterface => exact extendsInterface_ren e hn
  | interfaceBody => exact interfaceBody_ren e hn
  | interfaceMember => exact interfaceMember_ren e hn
  | constantDeclaration => exact constantDeclaration_ren e hn
  | accessorList => exact accessorList_ren e hn
  | accessorDeclaration => exact accessorDeclaration_ren e hn
  | castExpression => exact castExpression_ren e hn
  | throwStatement => exact throwStatement_ren e hn
  | breakStatement => exact breakStatement_ren e hn
  | continueStatement => exact continueStatement_ren e hn
  | switchExpression => exact switchExpression_ren e hn
  | switchBlock => exact switchBlock_ren e hn
  | switchRule => exact switchRule_ren e hn
  | switchLabel => exact switchLabel_ren e hn
  | whenSObjectType => exact whenSObjectType_ren e hn
  | instanceOfExpression => exact instanceOfExpression_ren e hn
  | versionExpression => exact versionExpression_ren e hn
  | javaFieldAccess => exact javaFieldAccess_ren e hn
  | javaType => exact javaType_ren e hn
  | arrayType => exact arrayType_ren e hn
  | triggerDeclaration => exact triggerDeclaration_ren e hn
  | triggerEvent => exact triggerEvent_ren e hn
  | triggerBody => exact triggerBody_ren e hn
  | queryExpression => exact queryExpression_ren e hn
  | soslQueryBody => exact soslQueryBody_ren e hn
  | findClause => exact findClause_ren e hn
  | inClause => exact inClause_ren e hn
  | returningClause => exact returningClause_ren e hn
  | sObjectReturn => exact sObjectReturn_ren e hn
  | soqlQueryBody => exact soqlQueryBody_ren e hn
  | fromClause => exact fromClause_ren e hn
  | storageAlias => exact storageAlias_ren e hn
  | limitClause => exact limitClause_ren e hn
  | updateClause => exact updateClause_ren e hn
  | boundApexExpression => exact boundApexExpression_ren e hn
  | soslUsingClause => exact soslUsingClause_ren e hn
  | usingSearch => exact usingSearch_ren e hn
  | usingClause => exact usingClause_ren e hn
  | usingClauseOption => exact usingClauseOption_ren e hn
  | usingScopeClause => exact usingScopeClause_ren e hn
  | usingLookupClause => exact usingLookupClause_ren e hn
  | usingListviewClause => exact usingListviewClause_ren e hn
  | usingLookupBindClause => exact usingLookupBindClause_ren e hn
  | usingLookupBindExpression => exact usingLookupBindExpression_ren e hn
  | whereClause => exact whereClause_ren e hn
  | comparisonExpression => exact comparisonExpression_ren e hn
  | comparableList => exact comparableList_ren e hn hk
  | orderByClause => exact orderByClause_ren e hn
  | orderExpression => exact orderExpression_ren e hn
  | subQuery => exact subQuery_ren e hn
  | mapCreationExpression => exact mapCreationExpression_ren e hn
  | mapInitializer => exact mapInitializer_ren e hn
  | mapKeyInitializer => exact mapKeyInitializer_ren e hn
  | groupByClause => exact groupByClause_ren e hn
  | havingClause => exact havingClause_ren e hn
  | soslWithClause => exact soslWithClause_ren e hn
  | soqlWithClause => exact soqlWithClause_ren e hn
  | soqlWithTypeVariant => exact soqlWithTypeVariant_ren e hn hk
  | soslWithType => exact soslWithType_ren e hn
  | withDataCatExpression => exact withDataCatExpression_ren e hn
  | withDataCatFilter => exact withDataCatFilter_ren e hn
  | withDivisionExpression => exact withDivisionExpression_ren e hn
  | withSnippetExpression => exact withSnippetExpression_ren e hn
  | withNetworkExpression => exact withNetworkExpression_ren e hn
  | withMetadataExpression => exact withMetadataExpression_ren e hn
  | withSpellCorrectionExpression => exact withSpellCorrectionExpression_ren e hn
  | withPriceBookExpression => exact withPriceBookExpression_ren e hn
  | dottedIdentifier => exact dottedIdentifier_ren e hn
  | valueNode => exact valueNode_ren hk
  | valueNodeLowerCase => exact valueNodeLowerCase_ren hk
  | valueNodeUpperCase => exact valueNodeUpperCase_ren hk
  | expressionStatement => exact expressionStatement_ren e hn
  | safeNavigationOperator => exact safeNavigationOperator_ren e hn
  | countExpression => exact countExpression_ren e hn
  | functionExpression => exact wrapper_ren _ _ e hn (fun _ => trivial)
  | fieldIdentifier => exact wrapper_ren _ _ e hn (fun _ => trivial)
  | geoLocationType => exact wrapper_ren _ _ e hn (fun _ => trivial)
  | selectClause => exact wrapper_ren _ _ e hn (fun _ => trivial)
  | storageIdentifier => exact wrapper_ren _ _ e hn (fun _ => trivial)
  | andExpression => exact andExpression_ren e hn
  | orExpression => exact orExpression_ren e hn
  | notExpression => exact notExpression_ren e hn
  | soqlWithType => exact wrapper_ren _ _ e hn (fun h => h)
  | forClause => exact forClause_ren e hn
  | allRowsClause => exact allRowsClause_ren e hn
  | updateExpression => exact wrapper_ren _ _ e hn (fun _ => trivial)
  | dmlExpression => exact wrapper_ren _ _ e hn (fun _ => trivial)
  | dmlType => exact dmlType_ren e hn
  | rootMember => exact rootMember_ren e hn
  | classMember => exact classMember_ren e hn
  | unannotatedType => exact unannotatedType_ren e hn
  | simpleType => exact simpleType_ren e hn
  | variableInitializer => exact variableInitializer_ren e hn
  | expression => exact expression_ren e hn
  | primaryExpression => exact primaryExpression_ren e hn
  | classLiteral => exact classLiteral_ren e hn
  | literal => exact literal_ren e hn
  | modifierKind => exact modifierKind_ren
  | statement => exact statement_ren e hn
  | type => exact type_ren e hn
  | annotationArgumentList => exact annotationArgumentList_ren e hn hk
  | triggerEventVariant => exact triggerEventVariant_ren
  | selectClauseVariant => exact selectClauseVariant_ren e hn
  | selectableExpression => exact selectableExpression_ren e hn
  | fieldsExpression => exact fieldsExpression_ren e hn
  | aliasExpression => exact aliasExpression_ren e hn
  | fieldIdentifierVariant => exact fieldIdentifierVariant_ren e hn
  | storageVariant => exact storageVariant_ren e hn
  | storageIdentifierVariant => exact storageIdentifierVariant_ren e hn
  | limitValue => exact limitValue_ren e hn
  | booleanExpression => exact booleanExpression_ren e hn
  | conditionExpression => exact conditionExpression_ren _ e hn
  | valueExpression => exact valueExpression_ren e hn
  | geoLocationTypeVariant => exact geoLocationTypeVariant_ren e hn
  | comparison => exact comparison_ren e hn hk
  | soqlLiteral => exact soqlLiteral_ren e hn hk
  | dateLiteralWithParam => exact dateLiteralWithParam_ren e hn
  | setValue => exact setValue_ren e hn
  | comparableListValue => exact comparableListValue_ren e hn hk
  | offsetClause => exact offsetClause_ren e hn
  | functionExpressionVariant => exact functionExpressionVariant_ren e hn

end Afmt
