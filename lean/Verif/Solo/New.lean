import Verif.Solo.Tac

/-!
# Constructors do not look beyond the member they are called for
-/

set_option linter.unusedVariables false
set_option linter.unusedSectionVars false

namespace Afmt
namespace Solo
open Gram Prog Prog.New

variable {q : List Frame} {m : Node} {cfg cfg' : Cfg} {rec rec' : Rec} {n : Loc}

theorem boolOperator_solo (e : E m q cfg cfg' rec rec') (hn : Dn m n) :
    boolOperator (graft q n) = boolOperator n := by
  have hk : Ok m q n := hn.ok
  unfold boolOperator
  repeat' gs
  all_goals gf

theorem binaryContext_solo (e : E m q cfg cfg' rec rec') (hn : Dn m n) :
    binaryContext (graft q n) = binaryContext n := by
  unfold binaryContext
  refine bindE (loc_cByN _ _) ?_
  intro o _
  refine bindS rfl ?_
  intro p _
  rw [loc_parent n hn.2]
  cases n.parent with
  | none => rfl
  | some x =>
    simp only [Option.map_some]
    refine bindS ?_ ?_
    · refine iteE (fun _ => ?_) (fun _ => rfl)
      refine bindE (loc_cByN _ _) ?_
      intro _ _
      rfl
    · intro _ _
      rfl

theorem root_solo (e : E m q cfg cfg' rec rec') (hn : Dn m n) :
    root cfg' rec' (graft q n) = root cfg rec n := by
  have hk : Ok m q n := hn.ok
  unfold root
  repeat' gs
  all_goals gf

theorem classDeclaration_solo (e : E m q cfg cfg' rec rec') (hk : Ok m q n) :
    classDeclaration rec' (graft q n) = classDeclaration rec n := by
  unfold classDeclaration
  repeat' gs
  all_goals gf

theorem methodDeclaration_solo (e : E m q cfg cfg' rec rec') (hn : Dn m n) :
    methodDeclaration rec' (graft q n) = methodDeclaration rec n := by
  have hk : Ok m q n := hn.ok
  unfold methodDeclaration
  repeat' gs
  all_goals gf

theorem formalParameters_solo (e : E m q cfg cfg' rec rec') (hn : Dn m n) :
    formalParameters rec' (graft q n) = formalParameters rec n := by
  have hk : Ok m q n := hn.ok
  unfold formalParameters
  repeat' gs
  all_goals gf

theorem formalParameter_solo (e : E m q cfg cfg' rec rec') (hn : Dn m n) :
    formalParameter rec' (graft q n) = formalParameter rec n := by
  have hk : Ok m q n := hn.ok
  unfold formalParameter
  repeat' gs
  all_goals gf

theorem superClass_solo (e : E m q cfg cfg' rec rec') (hn : Dn m n) :
    superClass rec' (graft q n) = superClass rec n := by
  have hk : Ok m q n := hn.ok
  unfold superClass
  repeat' gs
  all_goals gf

theorem modifiers_solo (e : E m q cfg cfg' rec rec') (hn : Dn m n) :
    modifiers rec' (graft q n) = modifiers rec n := by
  have hk : Ok m q n := hn.ok
  unfold modifiers
  repeat' gs
  all_goals gf

theorem modifier_solo (e : E m q cfg cfg' rec rec') (hn : Dn m n) :
    modifier rec' (graft q n) = modifier rec n := by
  have hk : Ok m q n := hn.ok
  unfold modifier
  repeat' gs
  all_goals gf

theorem annotation_solo (e : E m q cfg cfg' rec rec') (hn : Dn m n) :
    annotation rec' (graft q n) = annotation rec n := by
  have hk : Ok m q n := hn.ok
  unfold annotation
  repeat' gs
  all_goals gf

theorem annotationKeyValue_solo (e : E m q cfg cfg' rec rec') (hn : Dn m n) :
    annotationKeyValue rec' (graft q n) = annotationKeyValue rec n := by
  have hk : Ok m q n := hn.ok
  unfold annotationKeyValue
  repeat' gs
  all_goals gf

theorem classBody_solo (e : E m q cfg cfg' rec rec') (hn : Dn m n) :
    classBody cfg' rec' (graft q n) = classBody cfg rec n := by
  have hk : Ok m q n := hn.ok
  unfold classBody
  repeat' gs
  all_goals gf

theorem fieldDeclaration_solo (e : E m q cfg cfg' rec rec') (hn : Dn m n) :
    fieldDeclaration rec' (graft q n) = fieldDeclaration rec n := by
  have hk : Ok m q n := hn.ok
  unfold fieldDeclaration
  repeat' gs
  all_goals gf

theorem arrayInitializer_solo (e : E m q cfg cfg' rec rec') (hn : Dn m n) :
    arrayInitializer rec' (graft q n) = arrayInitializer rec n := by
  have hk : Ok m q n := hn.ok
  unfold arrayInitializer
  repeat' gs
  all_goals gf

theorem assignmentExpression_solo (e : E m q cfg cfg' rec rec') (hn : Dn m n) :
    assignmentExpression rec' (graft q n) = assignmentExpression rec n := by
  have hk : Ok m q n := hn.ok
  unfold assignmentExpression
  repeat' gs
  all_goals gf

theorem assignmentLeft_solo (e : E m q cfg cfg' rec rec') (hn : Dn m n) :
    assignmentLeft rec' (graft q n) = assignmentLeft rec n := by
  have hk : Ok m q n := hn.ok
  unfold assignmentLeft
  repeat' gs
  all_goals gf

theorem boolType_solo (e : E m q cfg cfg' rec rec') (hn : Dn m n) :
    boolType (graft q n) = boolType n := by
  have hk : Ok m q n := hn.ok
  unfold boolType
  repeat' gs
  all_goals gf

theorem block_solo (e : E m q cfg cfg' rec rec') (hn : Dn m n) :
    block cfg' rec' (graft q n) = block cfg rec n := by
  have hk : Ok m q n := hn.ok
  unfold block
  repeat' gs
  all_goals gf

theorem interface_solo (e : E m q cfg cfg' rec rec') (hn : Dn m n) :
    interface rec' (graft q n) = interface rec n := by
  have hk : Ok m q n := hn.ok
  unfold interface
  repeat' gs
  all_goals gf

theorem typeList_solo (e : E m q cfg cfg' rec rec') (hn : Dn m n) :
    typeList rec' (graft q n) = typeList rec n := by
  have hk : Ok m q n := hn.ok
  unfold typeList
  repeat' gs
  all_goals gf

theorem objectExpression_solo (e : E m q cfg cfg' rec rec') (hn : Dn m n) :
    objectExpression rec' (graft q n) = objectExpression rec n := by
  have hk : Ok m q n := hn.ok
  unfold objectExpression
  repeat' gs
  all_goals gf

theorem propertyNavigation_solo (e : E m q cfg cfg' rec rec') (hn : Dn m n) :
    propertyNavigation rec' (graft q n) = propertyNavigation rec n := by
  have hk : Ok m q n := hn.ok
  unfold propertyNavigation
  repeat' gs
  all_goals gf

theorem methodInvocation_solo (e : E m q cfg cfg' rec rec') (hn : Dn m n) :
    methodInvocation rec' (graft q n) = methodInvocation rec n := by
  have hk : Ok m q n := hn.ok
  unfold methodInvocation
  repeat' gs
  gcN "object"
  · gf
  repeat' gs
  refine bindS (propertyNavigation_solo e (by assumption)) ?_
  intro _ _
  repeat' gs
  all_goals gf

theorem typeArguments_solo (e : E m q cfg cfg' rec rec') (hn : Dn m n) :
    typeArguments rec' (graft q n) = typeArguments rec n := by
  have hk : Ok m q n := hn.ok
  unfold typeArguments
  repeat' gs
  all_goals gf

theorem argumentList_solo (e : E m q cfg cfg' rec rec') (hn : Dn m n) :
    argumentList rec' (graft q n) = argumentList rec n := by
  have hk : Ok m q n := hn.ok
  unfold argumentList
  repeat' gs
  all_goals gf

theorem super_solo (e : E m q cfg cfg' rec rec') (hn : Dn m n) :
    super (graft q n) = super n := by
  have hk : Ok m q n := hn.ok
  unfold super
  repeat' gs
  all_goals gf

theorem this_solo (e : E m q cfg cfg' rec rec') (hn : Dn m n) :
    this (graft q n) = this n := by
  have hk : Ok m q n := hn.ok
  unfold this
  repeat' gs
  all_goals gf

theorem binaryExpression_solo (e : E m q cfg cfg' rec rec') (hn : Dn m n) :
    binaryExpression rec' (graft q n) = binaryExpression rec n := by
  have hk : Ok m q n := hn.ok
  unfold binaryExpression
  repeat' gs
  refine bindS (binaryContext_solo e hn) ?_
  intro _ _
  all_goals gf

theorem localVariableDeclaration_solo (e : E m q cfg cfg' rec rec') (hn : Dn m n) :
    localVariableDeclaration rec' (graft q n) = localVariableDeclaration rec n := by
  have hk : Ok m q n := hn.ok
  unfold localVariableDeclaration
  repeat' gs
  all_goals gf

theorem variableDeclarator_solo (e : E m q cfg cfg' rec rec') (hn : Dn m n) :
    variableDeclarator rec' (graft q n) = variableDeclarator rec n := by
  have hk : Ok m q n := hn.ok
  unfold variableDeclarator
  repeat' gs
  gcN "value"
  all_goals (repeat' gs)
  all_goals gf

theorem genericType_solo (e : E m q cfg cfg' rec rec') (hn : Dn m n) :
    genericType rec' (graft q n) = genericType rec n := by
  have hk : Ok m q n := hn.ok
  unfold genericType
  gs
  refine bindS ?_ ?_
  · simp only [loc_tryCByK]
    cases hK : n.tryCByK "type_identifier" with
    | some i => rfl
    | none =>
      cases hL : n.tryCByK "scoped_type_identifier" with
      | none => rfl
      | some i => exact e.call _ _ (dn_tryCByK hn.1 hL)
  intro _ _
  repeat' gs
  all_goals gf

theorem ifStatement_solo (e : E m q cfg cfg' rec rec') (hn : Dn m n) :
    ifStatement rec' (graft q n) = ifStatement rec n := by
  have hk : Ok m q n := hn.ok
  unfold ifStatement
  repeat' gs
  gcN "alternative"
  · gf
  rw [loc_children, find_graft (fun _ => rfl)]
  cases hf : n.children.find? (fun c => c.kind == "else") with
  | none => rfl
  | some x =>
    have := dn_child hn.1 (List.mem_of_find?_eq_some hf)
    simp only [Option.map_some]
    repeat' gs
    all_goals gf

theorem parenthesizedExpression_solo (e : E m q cfg cfg' rec rec') (hn : Dn m n) :
    parenthesizedExpression rec' (graft q n) = parenthesizedExpression rec n := by
  have hk : Ok m q n := hn.ok
  unfold parenthesizedExpression
  repeat' gs
  all_goals gf

theorem forInitOption_solo (e : E m q cfg cfg' rec rec') (hn : Dn m n) :
    forInitOption rec' (graft q n) = forInitOption rec n := by
  have hk : Ok m q n := hn.ok
  unfold forInitOption
  repeat' gs
  rw [loc_parent n hn.2]
  cases hp : n.parent with
  | none => rfl
  | some p =>
    have : In m p := in_parent hn.1 hp
    simp only [Option.map_some]
    repeat' gs
    all_goals gf

theorem loopBody_solo (e : E m q cfg cfg' rec rec') (hn : Dn m n) :
    loopBody rec' (graft q n) = loopBody rec n := by
  have hk : Ok m q n := hn.ok
  unfold loopBody
  repeat' gs
  all_goals gf

theorem forStatement_solo (e : E m q cfg cfg' rec rec') (hn : Dn m n) :
    forStatement rec' (graft q n) = forStatement rec n := by
  have hk : Ok m q n := hn.ok
  unfold forStatement
  repeat' gs
  refine bindS ?_ ?_
  · rw [loc_children, filter_graft (fun _ => rfl)]
    exact mapE (fun l _ => rfl)
  intro _ _
  gs
  refine bindS (loopBody_solo e (by assumption)) ?_
  intro _ _
  refine bindS rfl ?_
  intro _ _
  all_goals gf

theorem enhancedForStatement_solo (e : E m q cfg cfg' rec rec') (hn : Dn m n) :
    enhancedForStatement rec' (graft q n) = enhancedForStatement rec n := by
  have hk : Ok m q n := hn.ok
  unfold enhancedForStatement
  repeat' gs
  refine bindS (loopBody_solo e (by assumption)) ?_
  intro _ _
  all_goals gf

theorem updateExpressionVariant_solo (e : E m q cfg cfg' rec rec') (hn : Dn m n) :
    updateExpressionVariant rec' (graft q n) = updateExpressionVariant rec n := by
  have hk : Ok m q n := hn.ok
  unfold updateExpressionVariant
  repeat' gs
  all_goals gf

theorem scopedTypeIdentifier_solo (e : E m q cfg cfg' rec rec') (hn : Dn m n) :
    scopedTypeIdentifier rec' (graft q n) = scopedTypeIdentifier rec n := by
  have hk : Ok m q n := hn.ok
  unfold scopedTypeIdentifier
  gs
  gs
  refine bindS ?_ ?_
  · refine iteE (fun _ => rfl) (fun _ => ?_)
    refine iteE (fun _ => e.call _ _ this) (fun _ => ?_)
    exact iteE (fun _ => e.call _ _ this) (fun _ => rfl)
  intro _ _
  gs
  refine bindE (loc_csByK _ _) ?_
  intro is _
  rw [List.getLast?_map]
  cases is.getLast? with
  | none => rfl
  | some i => gf

theorem constructorDeclaration_solo (e : E m q cfg cfg' rec rec') (hn : Dn m n) :
    constructorDeclaration rec' (graft q n) = constructorDeclaration rec n := by
  have hk : Ok m q n := hn.ok
  unfold constructorDeclaration
  repeat' gs
  all_goals gf

theorem constructorBody_solo (e : E m q cfg cfg' rec rec') (hn : Dn m n) :
    constructorBody cfg' rec' (graft q n) = constructorBody cfg rec n := by
  have hk : Ok m q n := hn.ok
  unfold constructorBody
  refine bindS ?_ ?_
  · rw [loc_childrenVec]
    have hv := fun l (hl : l ∈ n.childrenVec) => dn_vec hn.1 hl
    revert hv
    generalize n.childrenVec = ls
    intro hv
    rcases ls with _ | ⟨c, cs⟩
    · rfl
    refine iteE (fun _ => ?_) (fun _ => ?_)
    · refine bindS (e.member (hv c (.head _)) _) (fun _ _ => ?_)
      exact bindS (mapE (fun l hl => e.member (hv l (.tail _ hl)) _)) (fun _ _ => rfl)
    · exact bindS (mapE (ls := c :: cs) (fun l hl => e.member (hv l hl) _)) (fun _ _ => rfl)
  intro _ _
  rfl

theorem constructInvocation_solo (e : E m q cfg cfg' rec rec') (hn : Dn m n) :
    constructInvocation rec' (graft q n) = constructInvocation rec n := by
  have hk : Ok m q n := hn.ok
  unfold constructInvocation
  gs
  gs
  refine bindS ?_ ?_
  · rw [loc_tryCByN]
    exact optE (fun _ _ => rfl)
  intro _ _
  repeat' gs
  all_goals gf

theorem typeParameters_solo (e : E m q cfg cfg' rec rec') (hn : Dn m n) :
    typeParameters rec' (graft q n) = typeParameters rec n := by
  have hk : Ok m q n := hn.ok
  unfold typeParameters
  repeat' gs
  all_goals gf

theorem typeParameter_solo (e : E m q cfg cfg' rec rec') (hn : Dn m n) :
    typeParameter rec' (graft q n) = typeParameter rec n := by
  have hk : Ok m q n := hn.ok
  unfold typeParameter
  repeat' gs
  all_goals gf

theorem objectCreationExpression_solo (e : E m q cfg cfg' rec rec') (hn : Dn m n) :
    objectCreationExpression rec' (graft q n) = objectCreationExpression rec n := by
  have hk : Ok m q n := hn.ok
  unfold objectCreationExpression
  repeat' gs
  all_goals gf

theorem runAsStatement_solo (e : E m q cfg cfg' rec rec') (hn : Dn m n) :
    runAsStatement rec' (graft q n) = runAsStatement rec n := by
  have hk : Ok m q n := hn.ok
  unfold runAsStatement
  repeat' gs
  all_goals gf

theorem doStatement_solo (e : E m q cfg cfg' rec rec') (hn : Dn m n) :
    doStatement rec' (graft q n) = doStatement rec n := by
  have hk : Ok m q n := hn.ok
  unfold doStatement
  repeat' gs
  all_goals gf

theorem whileStatement_solo (e : E m q cfg cfg' rec rec') (hn : Dn m n) :
    whileStatement rec' (graft q n) = whileStatement rec n := by
  have hk : Ok m q n := hn.ok
  unfold whileStatement
  repeat' gs
  all_goals gf

theorem unaryExpression_solo (e : E m q cfg cfg' rec rec') (hn : Dn m n) :
    unaryExpression rec' (graft q n) = unaryExpression rec n := by
  have hk : Ok m q n := hn.ok
  unfold unaryExpression
  repeat' gs
  all_goals gf

theorem fieldNavigation_solo (e : E m q cfg cfg' rec rec') (hn : Dn m n) :
    fieldNavigation rec' (graft q n) = fieldNavigation rec n := by
  have hk : Ok m q n := hn.ok
  unfold fieldNavigation
  gcK "safe_navigation_operator"
  gs

theorem fieldAccess_solo (e : E m q cfg cfg' rec rec') (hn : Dn m n) :
    fieldAccess rec' (graft q n) = fieldAccess rec n := by
  have hk : Ok m q n := hn.ok
  unfold fieldAccess
  repeat' gs
  refine bindS (fieldNavigation_solo e hn) ?_
  intro _ _
  repeat' gs
  all_goals gf

theorem fieldOption_solo (e : E m q cfg cfg' rec rec') (hn : Dn m n) :
    fieldOption rec' (graft q n) = fieldOption rec n := by
  have hk : Ok m q n := hn.ok
  unfold fieldOption
  repeat' gs
  all_goals gf

theorem enumDeclaration_solo (e : E m q cfg cfg' rec rec') (hk : Ok m q n) :
    enumDeclaration rec' (graft q n) = enumDeclaration rec n := by
  unfold enumDeclaration
  repeat' gs
  all_goals gf

theorem enumBody_solo (e : E m q cfg cfg' rec rec') (hn : Dn m n) :
    enumBody rec' (graft q n) = enumBody rec n := by
  have hk : Ok m q n := hn.ok
  unfold enumBody
  repeat' gs
  all_goals gf

theorem enumConstant_solo (e : E m q cfg cfg' rec rec') (hn : Dn m n) :
    enumConstant rec' (graft q n) = enumConstant rec n := by
  have hk : Ok m q n := hn.ok
  unfold enumConstant
  repeat' gs
  all_goals gf

theorem dmlExpressionVariant_solo (e : E m q cfg cfg' rec rec') (hn : Dn m n) :
    dmlExpressionVariant rec' (graft q n) = dmlExpressionVariant rec n := by
  have hk : Ok m q n := hn.ok
  unfold dmlExpressionVariant
  repeat' gs
  all_goals gf

theorem dmlSecurityMode_solo (e : E m q cfg cfg' rec rec') (hn : Dn m n) :
    dmlSecurityMode (graft q n) = dmlSecurityMode n := by
  have hk : Ok m q n := hn.ok
  unfold dmlSecurityMode
  repeat' gs
  all_goals gf

theorem dmlTypeVariant_solo (e : E m q cfg cfg' rec rec') (hn : Dn m n) :
    dmlTypeVariant (graft q n) = dmlTypeVariant n := by
  have hk : Ok m q n := hn.ok
  unfold dmlTypeVariant
  repeat' gs
  all_goals gf

theorem arrayAccess_solo (e : E m q cfg cfg' rec rec') (hn : Dn m n) :
    arrayAccess rec' (graft q n) = arrayAccess rec n := by
  have hk : Ok m q n := hn.ok
  unfold arrayAccess
  repeat' gs
  all_goals gf

theorem arrayCreationExpression_solo (e : E m q cfg cfg' rec rec') (hn : Dn m n) :
    arrayCreationExpression rec' (graft q n) = arrayCreationExpression rec n := by
  have hk : Ok m q n := hn.ok
  unfold arrayCreationExpression
  gs
  refine bindS ?_ ?_
  · simp only [loc_tryCByN]
    cases hv : n.tryCByN "value" with
    | none =>
      simp only [Option.map_none]
      repeat' gs
      all_goals gf
    | some v =>
      have := dn_tryCByN hn.1 hv
      cases hd : n.tryCByN "dimensions" with
      | none =>
        simp only [Option.map_none, Option.map_some]
        repeat' gs
        all_goals gf
      | some d =>
        have := dn_tryCByN hn.1 hd
        simp only [Option.map_some]
        repeat' gs
        all_goals gf
  intro _ _
  repeat' gs
  all_goals gf

theorem dimensions_solo (e : E m q cfg cfg' rec rec') (hn : Dn m n) :
    dimensions (graft q n) = dimensions n := by
  have hk : Ok m q n := hn.ok
  unfold dimensions
  repeat' gs
  all_goals gf

theorem dimensionsExpr_solo (e : E m q cfg cfg' rec rec') (hn : Dn m n) :
    dimensionsExpr rec' (graft q n) = dimensionsExpr rec n := by
  have hk : Ok m q n := hn.ok
  unfold dimensionsExpr
  repeat' gs
  all_goals gf

theorem returnStatement_solo (e : E m q cfg cfg' rec rec') (hn : Dn m n) :
    returnStatement rec' (graft q n) = returnStatement rec n := by
  have hk : Ok m q n := hn.ok
  unfold returnStatement
  gs
  rw [loc_tryFirstC]
  cases hf : n.tryFirstC with
  | none =>
    refine okE ?_
    rw [punc_fromInner]
    rfl
  | some x =>
    have := dn_tryFirstC hn.1 hf
    simp only [Option.map_some]
    repeat' gs
    all_goals gf

theorem ternaryExpression_solo (e : E m q cfg cfg' rec rec') (hn : Dn m n) :
    ternaryExpression rec' (graft q n) = ternaryExpression rec n := by
  have hk : Ok m q n := hn.ok
  unfold ternaryExpression
  repeat' gs
  all_goals gf

theorem tryStatement_solo (e : E m q cfg cfg' rec rec') (hn : Dn m n) :
    tryStatement rec' (graft q n) = tryStatement rec n := by
  have hk : Ok m q n := hn.ok
  unfold tryStatement
  gs
  refine bindS ?_ ?_
  · gcK "finally_clause"
    all_goals (repeat' gs)
    all_goals gf
  intro _ _
  repeat' gs
  all_goals gf

theorem catchClause_solo (e : E m q cfg cfg' rec rec') (hn : Dn m n) :
    catchClause rec' (graft q n) = catchClause rec n := by
  have hk : Ok m q n := hn.ok
  unfold catchClause
  repeat' gs
  all_goals gf

theorem finallyClause_solo (e : E m q cfg cfg' rec rec') (hn : Dn m n) :
    finallyClause rec' (graft q n) = finallyClause rec n := by
  have hk : Ok m q n := hn.ok
  unfold finallyClause
  repeat' gs
  all_goals gf

theorem staticInitializer_solo (e : E m q cfg cfg' rec rec') (hn : Dn m n) :
    staticInitializer rec' (graft q n) = staticInitializer rec n := by
  have hk : Ok m q n := hn.ok
  unfold staticInitializer
  repeat' gs
  all_goals gf

theorem interfaceDeclaration_solo (e : E m q cfg cfg' rec rec') (hk : Ok m q n) :
    interfaceDeclaration rec' (graft q n) = interfaceDeclaration rec n := by
  unfold interfaceDeclaration
  repeat' gs
  all_goals gf

theorem extendsInterface_solo (e : E m q cfg cfg' rec rec') (hn : Dn m n) :
    extendsInterface rec' (graft q n) = extendsInterface rec n := by
  have hk : Ok m q n := hn.ok
  unfold extendsInterface
  repeat' gs
  all_goals gf

theorem interfaceBody_solo (e : E m q cfg cfg' rec rec') (hn : Dn m n) :
    interfaceBody cfg' rec' (graft q n) = interfaceBody cfg rec n := by
  have hk : Ok m q n := hn.ok
  unfold interfaceBody
  repeat' gs
  all_goals gf

theorem interfaceMember_solo (e : E m q cfg cfg' rec rec') (hn : Dn m n) :
    interfaceMember rec' (graft q n) = interfaceMember rec n := by
  have hk : Ok m q n := hn.ok
  unfold interfaceMember
  repeat' gs
  all_goals gf

theorem constantDeclaration_solo (e : E m q cfg cfg' rec rec') (hn : Dn m n) :
    constantDeclaration rec' (graft q n) = constantDeclaration rec n := by
  have hk : Ok m q n := hn.ok
  unfold constantDeclaration
  repeat' gs
  all_goals gf

theorem accessorList_solo (e : E m q cfg cfg' rec rec') (hn : Dn m n) :
    accessorList rec' (graft q n) = accessorList rec n := by
  have hk : Ok m q n := hn.ok
  unfold accessorList
  gs
  gs
  gs
  refine okE ?_
  rw [bwcp_graft hk, List.any_map]
  have : ((fun a => (Loc.tryCByN a "body").isSome) ∘ graft q) = (fun a => (Loc.tryCByN a "body").isSome) := by
    funext x
    simp only [Function.comp, loc_tryCByN, Option.isSome_map]
  rw [this]

theorem accessorDeclaration_solo (e : E m q cfg cfg' rec rec') (hn : Dn m n) :
    accessorDeclaration rec' (graft q n) = accessorDeclaration rec n := by
  have hk : Ok m q n := hn.ok
  unfold accessorDeclaration
  repeat' gs
  all_goals gf

theorem castExpression_solo (e : E m q cfg cfg' rec rec') (hn : Dn m n) :
    castExpression rec' (graft q n) = castExpression rec n := by
  have hk : Ok m q n := hn.ok
  unfold castExpression
  repeat' gs
  all_goals gf

theorem throwStatement_solo (e : E m q cfg cfg' rec rec') (hn : Dn m n) :
    throwStatement rec' (graft q n) = throwStatement rec n := by
  have hk : Ok m q n := hn.ok
  unfold throwStatement
  repeat' gs
  all_goals gf

theorem jump_solo (kw : String) (e : E m q cfg cfg' rec rec') (hn : Dn m n) : jump rec' (graft q n) kw = jump rec n kw := by
  have hk : Ok m q n := hn.ok
  unfold jump
  gcK "identifier"
  · refine okE ?_
    rw [punc_fromInner]
    rfl
  · repeat' gs
    all_goals gf

theorem breakStatement_solo (e : E m q cfg cfg' rec rec') (hn : Dn m n) :
    breakStatement rec' (graft q n) = breakStatement rec n := by
  have hk : Ok m q n := hn.ok
  unfold breakStatement
  gs
  exact jump_solo _ e hn

theorem continueStatement_solo (e : E m q cfg cfg' rec rec') (hn : Dn m n) :
    continueStatement rec' (graft q n) = continueStatement rec n := by
  have hk : Ok m q n := hn.ok
  unfold continueStatement
  gs
  exact jump_solo _ e hn

theorem switchExpression_solo (e : E m q cfg cfg' rec rec') (hn : Dn m n) :
    switchExpression rec' (graft q n) = switchExpression rec n := by
  have hk : Ok m q n := hn.ok
  unfold switchExpression
  repeat' gs
  all_goals gf

theorem switchBlock_solo (e : E m q cfg cfg' rec rec') (hn : Dn m n) :
    switchBlock rec' (graft q n) = switchBlock rec n := by
  have hk : Ok m q n := hn.ok
  unfold switchBlock
  repeat' gs
  all_goals gf

theorem switchRule_solo (e : E m q cfg cfg' rec rec') (hn : Dn m n) :
    switchRule rec' (graft q n) = switchRule rec n := by
  have hk : Ok m q n := hn.ok
  unfold switchRule
  repeat' gs
  all_goals gf

theorem switchLabel_solo (e : E m q cfg cfg' rec rec') (hn : Dn m n) :
    switchLabel rec' (graft q n) = switchLabel rec n := by
  have hk : Ok m q n := hn.ok
  unfold switchLabel
  gs
  rw [loc_childrenVec, List.isEmpty_map]
  refine iteE (fun _ => rfl) (fun _ => ?_)
  gcK "when_sobject_type"
  · refine bindS (e.mapL (fun l hl => dn_vec hn.1 hl) _) ?_
    intro _ _
    rfl
  · repeat' gs
    all_goals gf

theorem whenSObjectType_solo (e : E m q cfg cfg' rec rec') (hn : Dn m n) :
    whenSObjectType rec' (graft q n) = whenSObjectType rec n := by
  have hk : Ok m q n := hn.ok
  unfold whenSObjectType
  simp only [loc_childrenVec]
  rw [filter_graft (p := fun c => c.kind != "identifier") (fun _ => rfl), filter_graft (p := fun c => c.kind == "identifier") (fun _ => rfl)]
  refine bindS (e.mapL (fun l hl => dn_vec hn.1 (List.mem_filter.mp hl).1) _) ?_
  intro ts _
  rw [List.getLast?_map]
  cases ts.getLast? with
  | none => rfl
  | some ty =>
    cases (n.childrenVec.filter (fun c => c.kind == "identifier")).getLast? with
    | none => rfl
    | some i => gf

theorem instanceOfExpression_solo (e : E m q cfg cfg' rec rec') (hn : Dn m n) :
    instanceOfExpression rec' (graft q n) = instanceOfExpression rec n := by
  have hk : Ok m q n := hn.ok
  unfold instanceOfExpression
  repeat' gs
  all_goals gf

theorem versionExpression_solo (e : E m q cfg cfg' rec rec') (hn : Dn m n) :
    versionExpression rec' (graft q n) = versionExpression rec n := by
  have hk : Ok m q n := hn.ok
  unfold versionExpression
  repeat' gs
  all_goals gf

theorem javaFieldAccess_solo (e : E m q cfg cfg' rec rec') (hn : Dn m n) :
    javaFieldAccess rec' (graft q n) = javaFieldAccess rec n := by
  have hk : Ok m q n := hn.ok
  unfold javaFieldAccess
  repeat' gs
  all_goals gf

theorem javaType_solo (e : E m q cfg cfg' rec rec') (hn : Dn m n) :
    javaType rec' (graft q n) = javaType rec n := by
  have hk : Ok m q n := hn.ok
  unfold javaType
  repeat' gs
  all_goals gf

theorem arrayType_solo (e : E m q cfg cfg' rec rec') (hn : Dn m n) :
    arrayType rec' (graft q n) = arrayType rec n := by
  have hk : Ok m q n := hn.ok
  unfold arrayType
  repeat' gs
  all_goals gf

theorem triggerDeclaration_solo (e : E m q cfg cfg' rec rec') (hk : Ok m q n) :
    triggerDeclaration rec' (graft q n) = triggerDeclaration rec n := by
  unfold triggerDeclaration
  repeat' gs
  all_goals gf

theorem triggerEvent_solo (e : E m q cfg cfg' rec rec') (hn : Dn m n) :
    triggerEvent rec' (graft q n) = triggerEvent rec n := by
  have hk : Ok m q n := hn.ok
  unfold triggerEvent
  repeat' gs
  all_goals gf

theorem triggerBody_solo (e : E m q cfg cfg' rec rec') (hn : Dn m n) :
    triggerBody rec' (graft q n) = triggerBody rec n := by
  have hk : Ok m q n := hn.ok
  unfold triggerBody
  repeat' gs
  all_goals gf

theorem queryExpression_solo (e : E m q cfg cfg' rec rec') (hn : Dn m n) :
    queryExpression rec' (graft q n) = queryExpression rec n := by
  have hk : Ok m q n := hn.ok
  unfold queryExpression
  gs
  refine bindS ?_ ?_
  · gcK "soql_query_body"
    all_goals (repeat' gs)
  intro _ _
  repeat' gs
  all_goals gf

theorem soslQueryBody_solo (e : E m q cfg cfg' rec rec') (hn : Dn m n) :
    soslQueryBody rec' (graft q n) = soslQueryBody rec n := by
  have hk : Ok m q n := hn.ok
  unfold soslQueryBody
  repeat' gs
  all_goals gf

theorem findClause_solo (e : E m q cfg cfg' rec rec') (hn : Dn m n) :
    findClause rec' (graft q n) = findClause rec n := by
  have hk : Ok m q n := hn.ok
  unfold findClause
  gs
  gcK "bound_apex_expression"
  all_goals (repeat' gs)
  all_goals gf

theorem inClause_solo (e : E m q cfg cfg' rec rec') (hn : Dn m n) :
    inClause rec' (graft q n) = inClause rec n := by
  have hk : Ok m q n := hn.ok
  unfold inClause
  repeat' gs
  all_goals gf

theorem returningClause_solo (e : E m q cfg cfg' rec rec') (hn : Dn m n) :
    returningClause rec' (graft q n) = returningClause rec n := by
  have hk : Ok m q n := hn.ok
  unfold returningClause
  repeat' gs
  all_goals gf

theorem sObjectReturn_solo (e : E m q cfg cfg' rec rec') (hn : Dn m n) :
    sObjectReturn rec' (graft q n) = sObjectReturn rec n := by
  have hk : Ok m q n := hn.ok
  unfold sObjectReturn
  gs
  refine bindS ?_ ?_
  · simp only [loc_tryCByK n "selected_fields"]
    cases hK : n.tryCByK "selected_fields" with
    | none => rfl
    | some s =>
      have hs := dn_tryCByK hn.1 hK
      simp only [Option.map_some]
      repeat' gs
      refine okE ?_
      rw [bwcp_graft hs.ok]
  intro _ _
  repeat' gs
  all_goals gf

theorem soqlQueryBody_solo (e : E m q cfg cfg' rec rec') (hn : Dn m n) :
    soqlQueryBody rec' (graft q n) = soqlQueryBody rec n := by
  have hk : Ok m q n := hn.ok
  unfold soqlQueryBody
  repeat' gs
  all_goals gf

theorem fromClause_solo (e : E m q cfg cfg' rec rec') (hn : Dn m n) :
    fromClause rec' (graft q n) = fromClause rec n := by
  have hk : Ok m q n := hn.ok
  unfold fromClause
  repeat' gs
  all_goals gf

theorem storageAlias_solo (e : E m q cfg cfg' rec rec') (hn : Dn m n) :
    storageAlias rec' (graft q n) = storageAlias rec n := by
  have hk : Ok m q n := hn.ok
  unfold storageAlias
  repeat' gs
  all_goals gf

theorem limitClause_solo (e : E m q cfg cfg' rec rec') (hn : Dn m n) :
    limitClause rec' (graft q n) = limitClause rec n := by
  have hk : Ok m q n := hn.ok
  unfold limitClause
  repeat' gs
  all_goals gf

theorem updateClause_solo (e : E m q cfg cfg' rec rec') (hn : Dn m n) :
    updateClause rec' (graft q n) = updateClause rec n := by
  have hk : Ok m q n := hn.ok
  unfold updateClause
  repeat' gs
  all_goals gf

theorem boundApexExpression_solo (e : E m q cfg cfg' rec rec') (hn : Dn m n) :
    boundApexExpression rec' (graft q n) = boundApexExpression rec n := by
  have hk : Ok m q n := hn.ok
  unfold boundApexExpression
  repeat' gs
  all_goals gf

theorem soslUsingClause_solo (e : E m q cfg cfg' rec rec') (hn : Dn m n) :
    soslUsingClause rec' (graft q n) = soslUsingClause rec n := by
  have hk : Ok m q n := hn.ok
  unfold soslUsingClause
  repeat' gs
  all_goals gf

theorem usingSearch_solo (e : E m q cfg cfg' rec rec') (hn : Dn m n) :
    usingSearch (graft q n) = usingSearch n := by
  have hk : Ok m q n := hn.ok
  unfold usingSearch
  repeat' gs
  all_goals gf

theorem usingClause_solo (e : E m q cfg cfg' rec rec') (hn : Dn m n) :
    usingClause rec' (graft q n) = usingClause rec n := by
  have hk : Ok m q n := hn.ok
  unfold usingClause
  repeat' gs
  all_goals gf

theorem usingClauseOption_solo (e : E m q cfg cfg' rec rec') (hn : Dn m n) :
    usingClauseOption rec' (graft q n) = usingClauseOption rec n := by
  have hk : Ok m q n := hn.ok
  unfold usingClauseOption
  repeat' gs
  all_goals gf

theorem usingScopeClause_solo (e : E m q cfg cfg' rec rec') (hn : Dn m n) :
    usingScopeClause rec' (graft q n) = usingScopeClause rec n := by
  have hk : Ok m q n := hn.ok
  unfold usingScopeClause
  repeat' gs
  all_goals gf

theorem usingLookupClause_solo (e : E m q cfg cfg' rec rec') (hn : Dn m n) :
    usingLookupClause rec' (graft q n) = usingLookupClause rec n := by
  have hk : Ok m q n := hn.ok
  unfold usingLookupClause
  repeat' gs
  all_goals gf

theorem usingListviewClause_solo (e : E m q cfg cfg' rec rec') (hn : Dn m n) :
    usingListviewClause rec' (graft q n) = usingListviewClause rec n := by
  have hk : Ok m q n := hn.ok
  unfold usingListviewClause
  repeat' gs
  all_goals gf

theorem usingLookupBindClause_solo (e : E m q cfg cfg' rec rec') (hn : Dn m n) :
    usingLookupBindClause rec' (graft q n) = usingLookupBindClause rec n := by
  have hk : Ok m q n := hn.ok
  unfold usingLookupBindClause
  repeat' gs
  all_goals gf

theorem usingLookupBindExpression_solo (e : E m q cfg cfg' rec rec') (hn : Dn m n) :
    usingLookupBindExpression rec' (graft q n) = usingLookupBindExpression rec n := by
  have hk : Ok m q n := hn.ok
  unfold usingLookupBindExpression
  repeat' gs
  all_goals gf

theorem whereClause_solo (e : E m q cfg cfg' rec rec') (hn : Dn m n) :
    whereClause rec' (graft q n) = whereClause rec n := by
  have hk : Ok m q n := hn.ok
  unfold whereClause
  repeat' gs
  all_goals gf

theorem comparison_solo (e : E m q cfg cfg' rec rec') (hn : Dn m n) :
    comparison rec' (graft q n) = comparison rec n := by
  have hk : Ok m q n := hn.ok
  unfold comparison
  simp only [loc_tryCByK]
  cases hK : n.tryCByK "value_comparison_operator" with
  | some op =>
    have := dn_tryCByK hn.1 hK
    simp only [Option.map_some]
    gs
    refine bindS ?_ ?_
    · exact iteE (fun _ => e.call _ _ (by assumption)) (fun _ => e.call _ _ (by assumption))
    intro _ _
    rfl
  | none =>
    simp only [Option.map_none]
    cases hL : n.tryCByK "set_comparison_operator" with
    | none => rfl
    | some op =>
      have := dn_tryCByK hn.1 hL
      simp only [Option.map_some]
      repeat' gs
      all_goals gf

theorem comparisonExpression_solo (e : E m q cfg cfg' rec rec') (hn : Dn m n) :
    comparisonExpression rec' (graft q n) = comparisonExpression rec n := by
  have hk : Ok m q n := hn.ok
  unfold comparisonExpression
  repeat' gs
  all_goals gf

theorem comparableList_solo (e : E m q cfg cfg' rec rec') (hn : Dn m n) :
    comparableList rec' (graft q n) = comparableList rec n := by
  have hk : Ok m q n := hn.ok
  unfold comparableList
  repeat' gs
  all_goals gf

theorem orderByClause_solo (e : E m q cfg cfg' rec rec') (hn : Dn m n) :
    orderByClause rec' (graft q n) = orderByClause rec n := by
  have hk : Ok m q n := hn.ok
  unfold orderByClause
  repeat' gs
  all_goals gf

theorem orderExpression_solo (e : E m q cfg cfg' rec rec') (hn : Dn m n) :
    orderExpression rec' (graft q n) = orderExpression rec n := by
  have hk : Ok m q n := hn.ok
  unfold orderExpression
  repeat' gs
  all_goals gf

theorem subQuery_solo (e : E m q cfg cfg' rec rec') (hn : Dn m n) :
    subQuery rec' (graft q n) = subQuery rec n := by
  have hk : Ok m q n := hn.ok
  unfold subQuery
  repeat' gs
  all_goals gf

theorem mapCreationExpression_solo (e : E m q cfg cfg' rec rec') (hn : Dn m n) :
    mapCreationExpression rec' (graft q n) = mapCreationExpression rec n := by
  have hk : Ok m q n := hn.ok
  unfold mapCreationExpression
  repeat' gs
  all_goals gf

theorem mapInitializer_solo (e : E m q cfg cfg' rec rec') (hn : Dn m n) :
    mapInitializer rec' (graft q n) = mapInitializer rec n := by
  have hk : Ok m q n := hn.ok
  unfold mapInitializer
  repeat' gs
  all_goals gf

theorem mapKeyInitializer_solo (e : E m q cfg cfg' rec rec') (hn : Dn m n) :
    mapKeyInitializer rec' (graft q n) = mapKeyInitializer rec n := by
  have hk : Ok m q n := hn.ok
  unfold mapKeyInitializer
  gs
  rw [loc_childrenVec]
  have hv := fun l (hl : l ∈ n.childrenVec) => dn_vec hn.1 hl
  revert hv
  generalize n.childrenVec = ls
  intro hv
  rcases ls with _ | ⟨a, _ | ⟨b, _ | ⟨c, cs⟩⟩⟩
  · rfl
  · rfl
  · refine bindS (e.call _ _ (hv a (.head _))) (fun _ _ => ?_)
    refine bindS (e.call _ _ (hv b (.tail _ (.head _)))) (fun _ _ => ?_)
    gf
  · rfl

theorem groupByClause_solo (e : E m q cfg cfg' rec rec') (hn : Dn m n) :
    groupByClause rec' (graft q n) = groupByClause rec n := by
  have hk : Ok m q n := hn.ok
  unfold groupByClause
  gs
  rw [loc_childrenVec, List.all_map]
  refine iteE (fun _ => ?_) (fun _ => rfl)
  rw [filter_graft (p := fun c => c.kind != "having_clause") (fun _ => rfl), filter_graft (p := fun c => c.kind == "having_clause") (fun _ => rfl)]
  refine bindS (mapE (fun l hl => e.dispatch (dn_vec hn.1 (List.mem_filter.mp hl).1) _)) ?_
  intro _ _
  refine bindS (e.mapL (fun l hl => dn_vec hn.1 (List.mem_filter.mp hl).1) _) ?_
  intro _ _
  all_goals gf

theorem havingClause_solo (e : E m q cfg cfg' rec rec') (hn : Dn m n) :
    havingClause rec' (graft q n) = havingClause rec n := by
  have hk : Ok m q n := hn.ok
  unfold havingClause
  repeat' gs
  all_goals gf

theorem soslWithClause_solo (e : E m q cfg cfg' rec rec') (hn : Dn m n) :
    soslWithClause rec' (graft q n) = soslWithClause rec n := by
  have hk : Ok m q n := hn.ok
  unfold soslWithClause
  repeat' gs
  all_goals gf

theorem soqlWithClause_solo (e : E m q cfg cfg' rec rec') (hn : Dn m n) :
    soqlWithClause rec' (graft q n) = soqlWithClause rec n := by
  have hk : Ok m q n := hn.ok
  unfold soqlWithClause
  repeat' gs
  all_goals gf

theorem soqlWithTypeVariant_solo (e : E m q cfg cfg' rec rec') (hn : Dn m n) :
    soqlWithTypeVariant rec' (graft q n) = soqlWithTypeVariant rec n := by
  have hk : Ok m q n := hn.ok
  unfold soqlWithTypeVariant
  rw [loc_namedChildren, List.isEmpty_map]
  refine iteE (fun _ => e.call _ _ hn) (fun _ => ?_)
  repeat' gs
  all_goals gf

theorem soslWithType_solo (e : E m q cfg cfg' rec rec') (hn : Dn m n) :
    soslWithType rec' (graft q n) = soslWithType rec n := by
  have hk : Ok m q n := hn.ok
  unfold soslWithType
  gs
  gs
  refine iteE (fun _ => rfl) (fun _ => ?_)
  gs

theorem withDataCatExpression_solo (e : E m q cfg cfg' rec rec') (hn : Dn m n) :
    withDataCatExpression rec' (graft q n) = withDataCatExpression rec n := by
  have hk : Ok m q n := hn.ok
  unfold withDataCatExpression
  repeat' gs
  all_goals gf

theorem withDataCatFilter_solo (e : E m q cfg cfg' rec rec') (hn : Dn m n) :
    withDataCatFilter rec' (graft q n) = withDataCatFilter rec n := by
  have hk : Ok m q n := hn.ok
  unfold withDataCatFilter
  gs
  refine bindE (loc_csByK _ _) ?_
  intro is his
  have hv := fun l (hl : l ∈ is) => dn_csByK hn.1 his hl
  rcases is with _ | ⟨a, _ | ⟨b, cs⟩⟩
  · rfl
  · rfl
  · refine bindS (e.call _ _ (hv a (.head _))) (fun _ _ => ?_)
    refine bindS (e.mapL (ls := b :: cs) (fun l hl => hv l (.tail _ hl)) _) (fun _ _ => ?_)
    repeat' gs
    all_goals gf

theorem withDivisionExpression_solo (e : E m q cfg cfg' rec rec') (hn : Dn m n) :
    withDivisionExpression rec' (graft q n) = withDivisionExpression rec n := by
  have hk : Ok m q n := hn.ok
  unfold withDivisionExpression
  repeat' gs
  all_goals gf

theorem withSnippetExpression_solo (e : E m q cfg cfg' rec rec') (hn : Dn m n) :
    withSnippetExpression rec' (graft q n) = withSnippetExpression rec n := by
  have hk : Ok m q n := hn.ok
  unfold withSnippetExpression
  repeat' gs
  all_goals gf

theorem withNetworkExpression_solo (e : E m q cfg cfg' rec rec') (hn : Dn m n) :
    withNetworkExpression rec' (graft q n) = withNetworkExpression rec n := by
  have hk : Ok m q n := hn.ok
  unfold withNetworkExpression
  repeat' gs
  all_goals gf

theorem withMetadataExpression_solo (e : E m q cfg cfg' rec rec') (hn : Dn m n) :
    withMetadataExpression rec' (graft q n) = withMetadataExpression rec n := by
  have hk : Ok m q n := hn.ok
  unfold withMetadataExpression
  repeat' gs
  all_goals gf

theorem withSpellCorrectionExpression_solo (e : E m q cfg cfg' rec rec') (hn : Dn m n) :
    withSpellCorrectionExpression rec' (graft q n) = withSpellCorrectionExpression rec n := by
  have hk : Ok m q n := hn.ok
  unfold withSpellCorrectionExpression
  repeat' gs
  all_goals gf

theorem withPriceBookExpression_solo (e : E m q cfg cfg' rec rec') (hn : Dn m n) :
    withPriceBookExpression rec' (graft q n) = withPriceBookExpression rec n := by
  have hk : Ok m q n := hn.ok
  unfold withPriceBookExpression
  repeat' gs
  all_goals gf

theorem dottedIdentifier_solo (e : E m q cfg cfg' rec rec') (hn : Dn m n) :
    dottedIdentifier rec' (graft q n) = dottedIdentifier rec n := by
  have hk : Ok m q n := hn.ok
  unfold dottedIdentifier
  repeat' gs
  all_goals gf

theorem valueNode_solo (e : E m q cfg cfg' rec rec') (hn : Dn m n) :
    valueNode (graft q n) = valueNode n := by
  have hk : Ok m q n := hn.ok
  unfold valueNode
  repeat' gs
  all_goals gf

theorem valueNodeLowerCase_solo (e : E m q cfg cfg' rec rec') (hn : Dn m n) :
    valueNodeLowerCase (graft q n) = valueNodeLowerCase n := by
  have hk : Ok m q n := hn.ok
  unfold valueNodeLowerCase
  repeat' gs
  all_goals gf

theorem valueNodeUpperCase_solo (e : E m q cfg cfg' rec rec') (hn : Dn m n) :
    valueNodeUpperCase (graft q n) = valueNodeUpperCase n := by
  have hk : Ok m q n := hn.ok
  unfold valueNodeUpperCase
  repeat' gs
  all_goals gf

theorem expressionStatement_solo (e : E m q cfg cfg' rec rec') (hn : Dn m n) :
    expressionStatement rec' (graft q n) = expressionStatement rec n := by
  have hk : Ok m q n := hn.ok
  unfold expressionStatement
  repeat' gs
  all_goals gf

theorem safeNavigationOperator_solo (e : E m q cfg cfg' rec rec') (hn : Dn m n) :
    safeNavigationOperator (graft q n) = safeNavigationOperator n := by
  have hk : Ok m q n := hn.ok
  unfold safeNavigationOperator
  repeat' gs
  all_goals gf

theorem countExpression_solo (e : E m q cfg cfg' rec rec') (hn : Dn m n) :
    countExpression rec' (graft q n) = countExpression rec n := by
  have hk : Ok m q n := hn.ok
  unfold countExpression
  repeat' gs
  all_goals gf

theorem wrapper_solo (kind : String) (variant : Cls) (e : E m q cfg cfg' rec rec') (hn : Dn m n) :
    wrapper rec' kind variant (graft q n) = wrapper rec kind variant n := by
  have hk : Ok m q n := hn.ok
  unfold wrapper
  repeat' gs
  all_goals gf

theorem forClause_solo (e : E m q cfg cfg' rec rec') (hn : Dn m n) :
    forClause rec' (graft q n) = forClause rec n := by
  have hk : Ok m q n := hn.ok
  unfold forClause
  repeat' gs
  all_goals gf

theorem allRowsClause_solo (e : E m q cfg cfg' rec rec') (hn : Dn m n) :
    allRowsClause (graft q n) = allRowsClause n := by
  have hk : Ok m q n := hn.ok
  unfold allRowsClause
  repeat' gs
  all_goals gf

theorem dmlType_solo (e : E m q cfg cfg' rec rec') (hn : Dn m n) :
    dmlType rec' (graft q n) = dmlType rec n := by
  have hk : Ok m q n := hn.ok
  unfold dmlType
  repeat' gs
  all_goals gf

theorem booleanExpression_solo (e : E m q cfg cfg' rec rec') (hn : Dn m n) :
    booleanExpression rec' (graft q n) = booleanExpression rec n := by
  have hk : Ok m q n := hn.ok
  unfold booleanExpression
  repeat' gs
  all_goals gf

theorem conditionExpression_solo (parentOp : Option String) (e : E m q cfg cfg' rec rec') (hn : Dn m n) :
    conditionExpression rec' parentOp (graft q n) = conditionExpression rec parentOp n := by
  have hk : Ok m q n := hn.ok
  unfold conditionExpression
  repeat' gs
  all_goals gf

theorem andExpression_solo (e : E m q cfg cfg' rec rec') (hn : Dn m n) :
    andExpression rec' (graft q n) = andExpression rec n := by
  have hk : Ok m q n := hn.ok
  unfold andExpression
  gs
  refine bindS ?_ ?_
  · rw [loc_childrenVec]
    exact mapE (fun l hl => conditionExpression_solo _ e (dn_vec hn.1 hl))
  intro _ _
  gf

theorem orExpression_solo (e : E m q cfg cfg' rec rec') (hn : Dn m n) :
    orExpression rec' (graft q n) = orExpression rec n := by
  have hk : Ok m q n := hn.ok
  unfold orExpression
  gs
  refine bindS ?_ ?_
  · rw [loc_childrenVec]
    exact mapE (fun l hl => conditionExpression_solo _ e (dn_vec hn.1 hl))
  intro _ _
  gf

theorem notExpression_solo (e : E m q cfg cfg' rec rec') (hn : Dn m n) :
    notExpression rec' (graft q n) = notExpression rec n := by
  have hk : Ok m q n := hn.ok
  unfold notExpression
  gs
  gs
  refine bindS (conditionExpression_solo _ e this) ?_
  intro _ _
  gf

theorem rootMember_solo (e : E m q cfg cfg' rec rec') (hn : Dn m n) :
    rootMember rec' (graft q n) = rootMember rec n := by
  have hk : Ok m q n := hn.ok
  unfold rootMember
  repeat' gs
  all_goals gf

theorem classMember_solo (e : E m q cfg cfg' rec rec') (hn : Dn m n) :
    classMember rec' (graft q n) = classMember rec n := by
  have hk : Ok m q n := hn.ok
  unfold classMember
  repeat' gs
  all_goals gf

theorem unannotatedType_solo (e : E m q cfg cfg' rec rec') (hn : Dn m n) :
    unannotatedType rec' (graft q n) = unannotatedType rec n := by
  have hk : Ok m q n := hn.ok
  unfold unannotatedType
  repeat' gs
  all_goals gf

theorem simpleType_solo (e : E m q cfg cfg' rec rec') (hn : Dn m n) :
    simpleType rec' (graft q n) = simpleType rec n := by
  have hk : Ok m q n := hn.ok
  unfold simpleType
  repeat' gs
  all_goals gf

theorem variableInitializer_solo (e : E m q cfg cfg' rec rec') (hn : Dn m n) :
    variableInitializer rec' (graft q n) = variableInitializer rec n := by
  have hk : Ok m q n := hn.ok
  unfold variableInitializer
  repeat' gs
  all_goals gf

theorem expression_solo (e : E m q cfg cfg' rec rec') (hn : Dn m n) :
    expression rec' (graft q n) = expression rec n := by
  have hk : Ok m q n := hn.ok
  unfold expression
  repeat' gs
  all_goals gf

theorem primaryExpression_solo (e : E m q cfg cfg' rec rec') (hn : Dn m n) :
    primaryExpression rec' (graft q n) = primaryExpression rec n := by
  have hk : Ok m q n := hn.ok
  unfold primaryExpression
  repeat' gs
  all_goals gf

theorem classLiteral_solo (e : E m q cfg cfg' rec rec') (hn : Dn m n) :
    classLiteral rec' (graft q n) = classLiteral rec n := by
  have hk : Ok m q n := hn.ok
  unfold classLiteral
  repeat' gs
  all_goals gf

theorem literal_solo (e : E m q cfg cfg' rec rec') (hn : Dn m n) :
    literal rec' (graft q n) = literal rec n := by
  have hk : Ok m q n := hn.ok
  unfold literal
  repeat' gs
  all_goals gf

theorem keyword_solo (tbl : List (String × String)) (e : E m q cfg cfg' rec rec') (hn : Dn m n) :
    keyword tbl (graft q n) = keyword tbl n := by
  have hk : Ok m q n := hn.ok
  unfold keyword
  repeat' gs
  all_goals gf

theorem modifierKind_solo (e : E m q cfg cfg' rec rec') (hn : Dn m n) :
    modifierKind (graft q n) = modifierKind n := by
  have hk : Ok m q n := hn.ok
  unfold modifierKind
  repeat' gs
  all_goals gf

theorem statement_solo (e : E m q cfg cfg' rec rec') (hn : Dn m n) :
    statement rec' (graft q n) = statement rec n := by
  have hk : Ok m q n := hn.ok
  unfold statement
  repeat' gs
  all_goals gf

theorem type_solo (e : E m q cfg cfg' rec rec') (hn : Dn m n) :
    type rec' (graft q n) = type rec n := by
  have hk : Ok m q n := hn.ok
  unfold type
  repeat' gs
  all_goals gf

theorem annotationArgumentList_solo (e : E m q cfg cfg' rec rec') (hn : Dn m n) :
    annotationArgumentList rec' (graft q n) = annotationArgumentList rec n := by
  have hk : Ok m q n := hn.ok
  unfold annotationArgumentList
  rw [loc_namedChildren, List.isEmpty_map, loc_tryCsByK, List.isEmpty_map]
  refine iteE (fun _ => rfl) (fun _ => ?_)
  refine iteE (fun _ => ?_) (fun _ => ?_)
  · repeat' gs
    all_goals gf
  · refine bindS (e.mapL (fun l hl => dn_tryCsByK hn.1 hl) _) ?_
    intro _ _
    rfl

theorem triggerEventVariant_solo (e : E m q cfg cfg' rec rec') (hn : Dn m n) :
    triggerEventVariant (graft q n) = triggerEventVariant n := by
  have hk : Ok m q n := hn.ok
  unfold triggerEventVariant
  repeat' gs
  all_goals gf

theorem selectClauseVariant_solo (e : E m q cfg cfg' rec rec') (hn : Dn m n) :
    selectClauseVariant rec' (graft q n) = selectClauseVariant rec n := by
  have hk : Ok m q n := hn.ok
  unfold selectClauseVariant
  gs
  refine bindS ?_ ?_
  · gcK "count_expression"
    all_goals (repeat' gs)
    all_goals gf
  intro _ _
  all_goals gf

theorem selectableExpression_solo (e : E m q cfg cfg' rec rec') (hn : Dn m n) :
    selectableExpression rec' (graft q n) = selectableExpression rec n := by
  have hk : Ok m q n := hn.ok
  unfold selectableExpression
  repeat' gs
  all_goals gf

theorem fieldsExpression_solo (e : E m q cfg cfg' rec rec') (hn : Dn m n) :
    fieldsExpression rec' (graft q n) = fieldsExpression rec n := by
  have hk : Ok m q n := hn.ok
  unfold fieldsExpression
  repeat' gs
  all_goals gf

theorem aliasExpression_solo (e : E m q cfg cfg' rec rec') (hn : Dn m n) :
    aliasExpression rec' (graft q n) = aliasExpression rec n := by
  have hk : Ok m q n := hn.ok
  unfold aliasExpression
  repeat' gs
  all_goals gf

theorem fieldIdentifierVariant_solo (e : E m q cfg cfg' rec rec') (hn : Dn m n) :
    fieldIdentifierVariant rec' (graft q n) = fieldIdentifierVariant rec n := by
  have hk : Ok m q n := hn.ok
  unfold fieldIdentifierVariant
  repeat' gs
  all_goals gf

theorem storageVariant_solo (e : E m q cfg cfg' rec rec') (hn : Dn m n) :
    storageVariant rec' (graft q n) = storageVariant rec n := by
  have hk : Ok m q n := hn.ok
  unfold storageVariant
  repeat' gs
  all_goals gf

theorem storageIdentifierVariant_solo (e : E m q cfg cfg' rec rec') (hn : Dn m n) :
    storageIdentifierVariant rec' (graft q n) = storageIdentifierVariant rec n := by
  have hk : Ok m q n := hn.ok
  unfold storageIdentifierVariant
  repeat' gs
  all_goals gf

theorem limitValue_solo (e : E m q cfg cfg' rec rec') (hn : Dn m n) :
    limitValue rec' (graft q n) = limitValue rec n := by
  have hk : Ok m q n := hn.ok
  unfold limitValue
  repeat' gs
  all_goals gf

theorem valueExpression_solo (e : E m q cfg cfg' rec rec') (hn : Dn m n) :
    valueExpression rec' (graft q n) = valueExpression rec n := by
  have hk : Ok m q n := hn.ok
  unfold valueExpression
  repeat' gs
  all_goals gf

theorem geoLocationTypeVariant_solo (e : E m q cfg cfg' rec rec') (hn : Dn m n) :
    geoLocationTypeVariant rec' (graft q n) = geoLocationTypeVariant rec n := by
  have hk : Ok m q n := hn.ok
  unfold geoLocationTypeVariant
  gs
  refine iteE (fun _ => e.call _ _ this) (fun _ => ?_)
  refine iteE (fun _ => e.call _ _ this) (fun _ => ?_)
  refine iteE (fun _ => ?_) (fun _ => rfl)
  refine bindE (loc_csByK _ _) ?_
  intro is his
  have hv := fun l (hl : l ∈ is) => dn_csByK hn.1 his hl
  rcases is with _ | ⟨a, _ | ⟨b, _ | ⟨c, cs⟩⟩⟩
  · rfl
  · rfl
  · refine bindS (e.call _ _ this) (fun _ _ => ?_)
    refine bindS (e.call _ _ (hv a (.head _))) (fun _ _ => ?_)
    refine bindS (e.call _ _ (hv b (.tail _ (.head _)))) (fun _ _ => ?_)
    rfl
  · rfl

theorem soqlLiteral_solo (e : E m q cfg cfg' rec rec') (hn : Dn m n) :
    soqlLiteral rec' (graft q n) = soqlLiteral rec n := by
  have hk : Ok m q n := hn.ok
  unfold soqlLiteral
  repeat' gs
  all_goals gf

theorem dateLiteralWithParam_solo (e : E m q cfg cfg' rec rec') (hn : Dn m n) :
    dateLiteralWithParam (graft q n) = dateLiteralWithParam n := by
  have hk : Ok m q n := hn.ok
  unfold dateLiteralWithParam
  repeat' gs
  all_goals gf

theorem setValue_solo (e : E m q cfg cfg' rec rec') (hn : Dn m n) :
    setValue rec' (graft q n) = setValue rec n := by
  have hk : Ok m q n := hn.ok
  unfold setValue
  repeat' gs
  all_goals gf

theorem comparableListValue_solo (e : E m q cfg cfg' rec rec') (hn : Dn m n) :
    comparableListValue rec' (graft q n) = comparableListValue rec n := by
  have hk : Ok m q n := hn.ok
  unfold comparableListValue
  repeat' gs
  all_goals gf

theorem offsetClause_solo (e : E m q cfg cfg' rec rec') (hn : Dn m n) :
    offsetClause rec' (graft q n) = offsetClause rec n := by
  have hk : Ok m q n := hn.ok
  unfold offsetClause
  repeat' gs
  all_goals gf

theorem functionExpressionVariant_solo (e : E m q cfg cfg' rec rec') (hn : Dn m n) :
    functionExpressionVariant rec' (graft q n) = functionExpressionVariant rec n := by
  have hk : Ok m q n := hn.ok
  unfold functionExpressionVariant
  gs
  simp only [loc_tryCByK n "geo_location_type"]
  cases hK : n.tryCByK "geo_location_type" with
  | some g =>
    have := dn_tryCByK hn.1 hK
    simp only [Option.map_some]
    repeat' gs
    all_goals gf
  | none =>
    simp only [Option.map_none]
    gs
    gs
    refine bindS ?_ ?_
    · rw [loc_childrenVec, ← List.map_drop]
      exact e.mapL (fun l hl => dn_vec hn.1 (List.mem_of_mem_drop hl)) _
    intro _ _
    rfl

theorem step_solo (e : E m q cfg cfg' rec rec') (c : Cls) (hn : Dn m n) :
    Prog.step cfg' rec' c (graft q n) = Prog.step cfg rec c n := by
  cases c with
  | root => exact root_solo e hn
  | classDeclaration => exact classDeclaration_solo e hn.ok
  | methodDeclaration => exact methodDeclaration_solo e hn
  | formalParameters => exact formalParameters_solo e hn
  | formalParameter => exact formalParameter_solo e hn
  | superClass => exact superClass_solo e hn
  | modifiers => exact modifiers_solo e hn
  | modifier => exact modifier_solo e hn
  | annotation => exact annotation_solo e hn
  | annotationKeyValue => exact annotationKeyValue_solo e hn
  | classBody => exact classBody_solo e hn
  | fieldDeclaration => exact fieldDeclaration_solo e hn
  | arrayInitializer => exact arrayInitializer_solo e hn
  | assignmentExpression => exact assignmentExpression_solo e hn
  | assignmentLeft => exact assignmentLeft_solo e hn
  | boolType => exact boolType_solo e hn
  | block => exact block_solo e hn
  | interface => exact interface_solo e hn
  | typeList => exact typeList_solo e hn
  | objectExpression => exact objectExpression_solo e hn
  | methodInvocation => exact methodInvocation_solo e hn
  | typeArguments => exact typeArguments_solo e hn
  | argumentList => exact argumentList_solo e hn
  | super => exact super_solo e hn
  | this => exact this_solo e hn
  | binaryExpression => exact binaryExpression_solo e hn
  | localVariableDeclaration => exact localVariableDeclaration_solo e hn
  | variableDeclarator => exact variableDeclarator_solo e hn
  | genericType => exact genericType_solo e hn
  | ifStatement => exact ifStatement_solo e hn
  | parenthesizedExpression => exact parenthesizedExpression_solo e hn
  | forInitOption => exact forInitOption_solo e hn
  | forStatement => exact forStatement_solo e hn
  | enhancedForStatement => exact enhancedForStatement_solo e hn
  | updateExpressionVariant => exact updateExpressionVariant_solo e hn
  | scopedTypeIdentifier => exact scopedTypeIdentifier_solo e hn
  | constructorDeclaration => exact constructorDeclaration_solo e hn
  | constructorBody => exact constructorBody_solo e hn
  | constructInvocation => exact constructInvocation_solo e hn
  | typeParameters => exact typeParameters_solo e hn
  | typeParameter => exact typeParameter_solo e hn
  | objectCreationExpression => exact objectCreationExpression_solo e hn
  | runAsStatement => exact runAsStatement_solo e hn
  | doStatement => exact doStatement_solo e hn
  | whileStatement => exact whileStatement_solo e hn
  | unaryExpression => exact unaryExpression_solo e hn
  | fieldAccess => exact fieldAccess_solo e hn
  | fieldOption => exact fieldOption_solo e hn
  | enumDeclaration => exact enumDeclaration_solo e hn.ok
  | enumBody => exact enumBody_solo e hn
  | enumConstant => exact enumConstant_solo e hn
  | dmlExpressionVariant => exact dmlExpressionVariant_solo e hn
  | dmlSecurityMode => exact dmlSecurityMode_solo e hn
  | dmlTypeVariant => exact dmlTypeVariant_solo e hn
  | arrayAccess => exact arrayAccess_solo e hn
  | arrayCreationExpression => exact arrayCreationExpression_solo e hn
  | dimensions => exact dimensions_solo e hn
  | dimensionsExpr => exact dimensionsExpr_solo e hn
  | returnStatement => exact returnStatement_solo e hn
  | ternaryExpression => exact ternaryExpression_solo e hn
  | tryStatement => exact tryStatement_solo e hn
  | catchClause => exact catchClause_solo e hn
  | finallyClause => exact finallyClause_solo e hn
  | staticInitializer => exact staticInitializer_solo e hn
  | interfaceDeclaration => exact interfaceDeclaration_solo e hn.ok
  | extendsInterface => exact extendsInterface_solo e hn
  | interfaceBody => exact interfaceBody_solo e hn
  | interfaceMember => exact interfaceMember_solo e hn
  | constantDeclaration => exact constantDeclaration_solo e hn
  | accessorList => exact accessorList_solo e hn
  | accessorDeclaration => exact accessorDeclaration_solo e hn
  | castExpression => exact castExpression_solo e hn
  | throwStatement => exact throwStatement_solo e hn
  | breakStatement => exact breakStatement_solo e hn
  | continueStatement => exact continueStatement_solo e hn
  | switchExpression => exact switchExpression_solo e hn
  | switchBlock => exact switchBlock_solo e hn
  | switchRule => exact switchRule_solo e hn
  | switchLabel => exact switchLabel_solo e hn
  | whenSObjectType => exact whenSObjectType_solo e hn
  | instanceOfExpression => exact instanceOfExpression_solo e hn
  | versionExpression => exact versionExpression_solo e hn
  | javaFieldAccess => exact javaFieldAccess_solo e hn
  | javaType => exact javaType_solo e hn
  | arrayType => exact arrayType_solo e hn
  | triggerDeclaration => exact triggerDeclaration_solo e hn.ok
  | triggerEvent => exact triggerEvent_solo e hn
  | triggerBody => exact triggerBody_solo e hn
  | queryExpression => exact queryExpression_solo e hn
  | soslQueryBody => exact soslQueryBody_solo e hn
  | findClause => exact findClause_solo e hn
  | inClause => exact inClause_solo e hn
  | returningClause => exact returningClause_solo e hn
  | sObjectReturn => exact sObjectReturn_solo e hn
  | soqlQueryBody => exact soqlQueryBody_solo e hn
  | fromClause => exact fromClause_solo e hn
  | storageAlias => exact storageAlias_solo e hn
  | limitClause => exact limitClause_solo e hn
  | updateClause => exact updateClause_solo e hn
  | boundApexExpression => exact boundApexExpression_solo e hn
  | soslUsingClause => exact soslUsingClause_solo e hn
  | usingSearch => exact usingSearch_solo e hn
  | usingClause => exact usingClause_solo e hn
  | usingClauseOption => exact usingClauseOption_solo e hn
  | usingScopeClause => exact usingScopeClause_solo e hn
  | usingLookupClause => exact usingLookupClause_solo e hn
  | usingListviewClause => exact usingListviewClause_solo e hn
  | usingLookupBindClause => exact usingLookupBindClause_solo e hn
  | usingLookupBindExpression => exact usingLookupBindExpression_solo e hn
  | whereClause => exact whereClause_solo e hn
  | comparisonExpression => exact comparisonExpression_solo e hn
  | comparableList => exact comparableList_solo e hn
  | orderByClause => exact orderByClause_solo e hn
  | orderExpression => exact orderExpression_solo e hn
  | subQuery => exact subQuery_solo e hn
  | mapCreationExpression => exact mapCreationExpression_solo e hn
  | mapInitializer => exact mapInitializer_solo e hn
  | mapKeyInitializer => exact mapKeyInitializer_solo e hn
  | groupByClause => exact groupByClause_solo e hn
  | havingClause => exact havingClause_solo e hn
  | soslWithClause => exact soslWithClause_solo e hn
  | soqlWithClause => exact soqlWithClause_solo e hn
  | soqlWithTypeVariant => exact soqlWithTypeVariant_solo e hn
  | soslWithType => exact soslWithType_solo e hn
  | withDataCatExpression => exact withDataCatExpression_solo e hn
  | withDataCatFilter => exact withDataCatFilter_solo e hn
  | withDivisionExpression => exact withDivisionExpression_solo e hn
  | withSnippetExpression => exact withSnippetExpression_solo e hn
  | withNetworkExpression => exact withNetworkExpression_solo e hn
  | withMetadataExpression => exact withMetadataExpression_solo e hn
  | withSpellCorrectionExpression => exact withSpellCorrectionExpression_solo e hn
  | withPriceBookExpression => exact withPriceBookExpression_solo e hn
  | dottedIdentifier => exact dottedIdentifier_solo e hn
  | valueNode => exact valueNode_solo e hn
  | valueNodeLowerCase => exact valueNodeLowerCase_solo e hn
  | valueNodeUpperCase => exact valueNodeUpperCase_solo e hn
  | expressionStatement => exact expressionStatement_solo e hn
  | safeNavigationOperator => exact safeNavigationOperator_solo e hn
  | countExpression => exact countExpression_solo e hn
  | functionExpression => exact wrapper_solo _ _ e hn
  | fieldIdentifier => exact wrapper_solo _ _ e hn
  | geoLocationType => exact wrapper_solo _ _ e hn
  | selectClause => exact wrapper_solo _ _ e hn
  | storageIdentifier => exact wrapper_solo _ _ e hn
  | andExpression => exact andExpression_solo e hn
  | orExpression => exact orExpression_solo e hn
  | notExpression => exact notExpression_solo e hn
  | soqlWithType => exact wrapper_solo _ _ e hn
  | forClause => exact forClause_solo e hn
  | allRowsClause => exact allRowsClause_solo e hn
  | updateExpression => exact wrapper_solo _ _ e hn
  | dmlExpression => exact wrapper_solo _ _ e hn
  | dmlType => exact dmlType_solo e hn
  | rootMember => exact rootMember_solo e hn
  | classMember => exact classMember_solo e hn
  | unannotatedType => exact unannotatedType_solo e hn
  | simpleType => exact simpleType_solo e hn
  | variableInitializer => exact variableInitializer_solo e hn
  | expression => exact expression_solo e hn
  | primaryExpression => exact primaryExpression_solo e hn
  | classLiteral => exact classLiteral_solo e hn
  | literal => exact literal_solo e hn
  | modifierKind => exact modifierKind_solo e hn
  | statement => exact statement_solo e hn
  | type => exact type_solo e hn
  | annotationArgumentList => exact annotationArgumentList_solo e hn
  | triggerEventVariant => exact triggerEventVariant_solo e hn
  | selectClauseVariant => exact selectClauseVariant_solo e hn
  | selectableExpression => exact selectableExpression_solo e hn
  | fieldsExpression => exact fieldsExpression_solo e hn
  | aliasExpression => exact aliasExpression_solo e hn
  | fieldIdentifierVariant => exact fieldIdentifierVariant_solo e hn
  | storageVariant => exact storageVariant_solo e hn
  | storageIdentifierVariant => exact storageIdentifierVariant_solo e hn
  | limitValue => exact limitValue_solo e hn
  | booleanExpression => exact booleanExpression_solo e hn
  | conditionExpression => exact conditionExpression_solo _ e hn
  | valueExpression => exact valueExpression_solo e hn
  | geoLocationTypeVariant => exact geoLocationTypeVariant_solo e hn
  | comparison => exact comparison_solo e hn
  | soqlLiteral => exact soqlLiteral_solo e hn
  | dateLiteralWithParam => exact dateLiteralWithParam_solo e hn
  | setValue => exact setValue_solo e hn
  | comparableListValue => exact comparableListValue_solo e hn
  | offsetClause => exact offsetClause_solo e hn
  | functionExpressionVariant => exact functionExpressionVariant_solo e hn

end Solo
end Afmt
