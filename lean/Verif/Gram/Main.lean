import Verif.Gram.C1
import Verif.Gram.C9

/-!
# The printed content of conforming trees

Induction over the depth of calls: every constructor call that occurs for a conforming tree prints the content of its
node, or the program dies because the call stack is exhausted or because of an overflow in the arithmetic of rows.
-/

namespace Afmt.Gram
open Prog New
set_option maxRecDepth 10000
section
variable {root : Node} {cm : CMap} {cfg : Cfg} {bad : Panic → Prop} {rec : Rec} {l : Loc} {m : Nat}

theorem dead {α : Type} {r : R α} {Q : α → Prop} {c : Cls} (h : conf l.node (.cls c) = true) (hs : sub c = [])
    (hk : (NT.cls c).kinds = some []) : W bad r Q := by
  have := (conf_node h).2 [] (by rw [core_self hs]; exact hk)
  cases this

/-- Constructors that print the content of the node. -/
theorem step_node {c : Cls} (C : Ctx root cm cfg bad rec l m) (hp : plainCls c = true) (h : conf l.node (.cls c) = true) (hb : Body l)
    (hm : 8 * depth l.node + rank c ≤ m) : W bad (Prog.step cfg rec c l) (fun p => Sx (items cm p) (full cm l)) := by
  cases c with
  | root => exact root_sx C h
  | classDeclaration => exact classDeclaration_sx C h
  | methodDeclaration => exact methodDeclaration_sx C h
  | formalParameters => exact formalParameters_sx C h
  | formalParameter => exact formalParameter_sx C h
  | superClass => exact superClass_sx C h
  | modifiers => exact modifiers_sx C h
  | modifier => exact modifier_sx C h
  | annotation => exact annotation_sx C h
  | annotationKeyValue => exact annotationKeyValue_sx C h
  | classBody => exact classBody_sx C h
  | fieldDeclaration => exact fieldDeclaration_sx C h
  | arrayInitializer => exact arrayInitializer_sx C h
  | assignmentExpression => exact assignmentExpression_sx C h
  | assignmentLeft => exact assignmentLeft_sx C hb hm h
  | boolType => exact boolType_sx C h
  | block => exact block_sx C h
  | interface => exact interface_sx C h
  | typeList => exact typeList_sx C h
  | objectExpression => exact objectExpression_sx C hb hm h
  | methodInvocation => exact methodInvocation_sx C h
  | typeArguments => exact typeArguments_sx C h
  | argumentList => exact argumentList_sx C h
  | super => exact super_sx C h
  | this => exact this_sx C h
  | binaryExpression => exact binaryExpression_sx C h
  | localVariableDeclaration => exact localVariableDeclaration_sx C h hb
  | variableDeclarator => exact variableDeclarator_sx C h
  | genericType => exact genericType_sx C h
  | ifStatement => exact ifStatement_sx C h
  | parenthesizedExpression => exact parenthesizedExpression_sx C h
  | forInitOption => cases hp
  | forStatement => exact forStatement_sx C hm h
  | enhancedForStatement => exact enhancedForStatement_sx C h
  | updateExpressionVariant => cases hp
  | scopedTypeIdentifier => exact scopedTypeIdentifier_sx C h
  | constructorDeclaration => exact constructorDeclaration_sx C h
  | constructorBody => exact constructorBody_sx C h
  | constructInvocation => exact constructInvocation_sx C h
  | typeParameters => exact typeParameters_sx C h
  | typeParameter => exact typeParameter_sx C h
  | objectCreationExpression => exact objectCreationExpression_sx C h
  | runAsStatement => exact runAsStatement_sx C h
  | doStatement => exact doStatement_sx C h
  | whileStatement => exact whileStatement_sx C h
  | unaryExpression => exact unaryExpression_sx C h
  | fieldAccess => exact fieldAccess_sx C h
  | fieldOption => exact fieldOption_sx C hb hm h
  | enumDeclaration => exact enumDeclaration_sx C h
  | enumBody => exact enumBody_sx C h
  | enumConstant => exact enumConstant_sx C h
  | dmlExpressionVariant => cases hp
  | dmlSecurityMode => exact dmlSecurityMode_sx C h
  | dmlTypeVariant => exact dmlTypeVariant_sx C h
  | arrayAccess => exact arrayAccess_sx C h
  | arrayCreationExpression => exact arrayCreationExpression_sx C h
  | dimensions => exact dimensions_sx C h
  | dimensionsExpr => exact dimensionsExpr_sx C h
  | returnStatement => exact returnStatement_sx C h
  | ternaryExpression => exact ternaryExpression_sx C h
  | tryStatement => exact tryStatement_sx C h
  | catchClause => exact catchClause_sx C h
  | finallyClause => exact finallyClause_sx C h
  | staticInitializer => exact staticInitializer_sx C h
  | interfaceDeclaration => exact interfaceDeclaration_sx C h
  | extendsInterface => exact extendsInterface_sx C h
  | interfaceBody => exact interfaceBody_sx C h
  | interfaceMember => exact interfaceMember_sx C hb hm h
  | constantDeclaration => exact constantDeclaration_sx C h
  | accessorList => exact accessorList_sx C h
  | accessorDeclaration => exact accessorDeclaration_sx C h
  | castExpression => exact castExpression_sx C h
  | throwStatement => exact throwStatement_sx C h
  | breakStatement => exact breakStatement_sx C h
  | continueStatement => exact continueStatement_sx C h
  | switchExpression => exact switchExpression_sx C h
  | switchBlock => exact switchBlock_sx C h
  | switchRule => exact switchRule_sx C h
  | switchLabel => exact switchLabel_sx C h
  | whenSObjectType => exact whenSObjectType_sx C h
  | instanceOfExpression => exact instanceOfExpression_sx C h
  | versionExpression => exact versionExpression_sx C h
  | javaFieldAccess => exact javaFieldAccess_sx C h
  | javaType => exact javaType_sx C h
  | arrayType => exact arrayType_sx C h
  | triggerDeclaration => exact triggerDeclaration_sx C h
  | triggerEvent => exact triggerEvent_sx C h
  | triggerBody => exact triggerBody_sx C h
  | queryExpression => exact queryExpression_sx C h
  | soslQueryBody => exact soslQueryBody_sx C h
  | findClause => exact findClause_sx C h
  | inClause => exact inClause_sx C h
  | returningClause => exact returningClause_sx C h
  | sObjectReturn => exact sObjectReturn_sx C h
  | soqlQueryBody => exact soqlQueryBody_sx C h
  | fromClause => exact fromClause_sx C h
  | storageAlias => exact storageAlias_sx C h
  | limitClause => exact limitClause_sx C h
  | updateClause => exact updateClause_sx C h
  | boundApexExpression => exact boundApexExpression_sx C h
  | soslUsingClause => exact soslUsingClause_sx C h
  | usingSearch => exact usingSearch_sx C h
  | usingClause => exact usingClause_sx C h
  | usingClauseOption => exact usingClauseOption_sx C hb hm h
  | usingScopeClause => exact usingScopeClause_sx C h
  | usingLookupClause => exact dead h rfl rfl
  | usingListviewClause => exact usingListviewClause_sx C h
  | usingLookupBindClause => exact dead h rfl rfl
  | usingLookupBindExpression => exact dead h rfl rfl
  | whereClause => exact whereClause_sx C h
  | comparisonExpression => exact comparisonExpression_sx C (Nat.lt_of_lt_of_le (Nat.lt_add_of_pos_right (by decide)) hm) h
  | comparableList => exact comparableList_sx C h
  | orderByClause => exact orderByClause_sx C h
  | orderExpression => exact orderExpression_sx C h
  | subQuery => exact subQuery_sx C h
  | mapCreationExpression => exact mapCreationExpression_sx C h
  | mapInitializer => exact mapInitializer_sx C h
  | mapKeyInitializer => exact mapKeyInitializer_sx C h
  | groupByClause => exact groupByClause_sx C h
  | havingClause => exact havingClause_sx C h
  | soslWithClause => exact soslWithClause_sx C h
  | soqlWithClause => exact soqlWithClause_sx C h
  | soqlWithTypeVariant => cases hp
  | soslWithType => exact soslWithType_sx C h
  | withDataCatExpression => exact withDataCatExpression_sx C h
  | withDataCatFilter => exact withDataCatFilter_sx C h
  | withDivisionExpression => exact withDivisionExpression_sx C h
  | withSnippetExpression => exact withSnippetExpression_sx C h
  | withNetworkExpression => exact withNetworkExpression_sx C (Nat.lt_of_lt_of_le (Nat.lt_add_of_pos_right (by decide)) hm) h
  | withMetadataExpression => exact withMetadataExpression_sx C h
  | withSpellCorrectionExpression => exact withSpellCorrectionExpression_sx C h
  | withPriceBookExpression => exact withPriceBookExpression_sx C h
  | dottedIdentifier => exact dottedIdentifier_sx C h
  | valueNode => exact valueNode_sx C h
  | valueNodeLowerCase => exact valueNodeLowerCase_sx C h
  | valueNodeUpperCase => exact valueNodeUpperCase_sx C h
  | expressionStatement => exact expressionStatement_sx C h
  | safeNavigationOperator => exact safeNavigationOperator_sx C h
  | countExpression => exact countExpression_sx C h
  | functionExpression => exact functionExpression_sx C hm h
  | fieldIdentifier => exact fieldIdentifier_sx C hm h
  | geoLocationType => exact geoLocationType_sx C hm h
  | selectClause => exact selectClause_sx C hm h
  | storageIdentifier => exact storageIdentifier_sx C hm h
  | andExpression => exact andExpression_sx C h
  | orExpression => exact orExpression_sx C h
  | notExpression => exact notExpression_sx C h
  | soqlWithType => exact soqlWithType_sx C hm h
  | forClause => cases hp
  | allRowsClause => exact allRowsClause_sx C h
  | updateExpression => exact updateExpression_sx C hm h
  | dmlExpression => exact dmlExpression_sx C hm h
  | dmlType => exact dmlType_sx C h
  | rootMember => exact rootMember_sx C hb hm h
  | classMember => exact classMember_sx C hb hm h
  | unannotatedType => exact unannotatedType_sx C hb hm h
  | simpleType => exact simpleType_sx C hb hm h
  | variableInitializer => exact variableInitializer_sx C hb hm h
  | expression => exact expression_sx C hb hm h
  | primaryExpression => exact primaryExpression_sx C hb hm h
  | classLiteral => exact classLiteral_sx C h
  | literal => exact literal_sx C hb hm h
  | modifierKind => exact modifierKind_sx C h
  | statement => exact statement_sx C hb hm h
  | type => exact type_sx C hb hm h
  | annotationArgumentList => exact annotationArgumentList_sx C h
  | triggerEventVariant => exact triggerEventVariant_sx C h
  | selectClauseVariant => cases hp
  | selectableExpression => exact selectableExpression_sx C hb hm h
  | fieldsExpression => exact fieldsExpression_sx C h
  | aliasExpression => exact aliasExpression_sx C h
  | fieldIdentifierVariant => cases hp
  | storageVariant => exact storageVariant_sx C hb hm h
  | storageIdentifierVariant => cases hp
  | limitValue => exact limitValue_sx C hb hm h
  | booleanExpression => exact booleanExpression_sx C hb hm h
  | conditionExpression => exact dead h rfl rfl
  | valueExpression => exact valueExpression_sx C hb hm h
  | geoLocationTypeVariant => cases hp
  | comparison => cases hp
  | soqlLiteral => exact soqlLiteral_sx C hb hm h
  | dateLiteralWithParam => exact dateLiteralWithParam_sx C h
  | setValue => exact setValue_sx C hb hm h
  | comparableListValue => exact comparableListValue_sx C hb hm h
  | offsetClause => exact offsetClause_sx C h
  | functionExpressionVariant => cases hp

/-- Constructors that print the content of the node without its bucket. -/
theorem step_variant {c : Cls} (C : Ctx root cm cfg bad rec l m) (hp : variantCls c = true) (h : conf l.node (.cls c) = true)
    (hw : bag cm l.id = [] ∨ c ≠ .soqlWithTypeVariant) (hm : 8 * depth l.node < m) :
    W bad (Prog.step cfg rec c l) (fun p => Sx (items cm p) (body cm l)) := by
  cases c with
  | updateExpressionVariant => exact updateExpressionVariant_sx C h
  | dmlExpressionVariant => exact dmlExpressionVariant_sx C h
  | soqlWithTypeVariant => exact soqlWithTypeVariant_sx C hm h (hw.resolve_right (fun h => h rfl))
  | selectClauseVariant => exact selectClauseVariant_sx C h
  | fieldIdentifierVariant => exact fieldIdentifierVariant_sx C h
  | storageIdentifierVariant => exact storageIdentifierVariant_sx C h
  | geoLocationTypeVariant => exact geoLocationTypeVariant_sx C h
  | functionExpressionVariant => exact functionExpressionVariant_sx C h
  | _ => cases hp

end

/-- How a program can die on a conforming tree, for calls of the given depth and a node of the given measure: the call
stack is exhausted, or a row number underflows with overflow checks. -/
def Bad (cfg : Cfg) (fuel m : Nat) (e : Panic) : Prop :=
  (e = .stackOverflow ∧ fuel ≤ m) ∨ (e = .arithmetic ∧ cfg.checks = true)

/-- A constructor prints the content if the calls with a smaller measure do. -/
theorem step_sx {root : Node} {cm : CMap} {cfg : Cfg} {bad : Panic → Prop} {rec : Rec} (g : Good root cm) (hcm : cfg.cm = cm)
    (har : cfg.checks = true → bad .arithmetic) {c : Cls} {x : Loc} {k : Cont} {m : Nat} (hc : Call root cm c x k m)
    (call : ∀ {c' x' k' m'}, Call root cm c' x' k' m' → m' < m → W bad (rec c' x') (fun p => Sx (items cm p) k')) :
    W bad (Prog.step cfg rec c x) (fun p => Sx (items cm p) k) := by
  have ctx : ∀ {l}, Reach root l → 8 * depth l.node ≤ m → Ctx root cm cfg bad rec l m := fun hr hs =>
    ⟨g, hcm, har, hr, call, hs⟩
  cases hc with
  | node hr hp h hb => exact step_node (ctx hr (by omega)) hp h hb (Nat.le_refl _)
  | variant hr hp h hw =>
    refine step_variant (ctx hr (by omega)) hp h hw ?_
    have : rank c = 1 := by cases c <;> first | rfl | cases hp
    omega
  | comparison hr hs hv ha ht => exact comparison_sx (ctx hr (by omega)) hs hv ha ht
  | forClause hr h => exact forClause_sx (ctx hr (by omega)) h
  | forDecl hr h => exact forInitOption_decl (ctx hr (by omega)) (by omega) h
  | decl hr h => exact localVariableDeclaration_cx (ctx hr (by omega)) h
  | forInit hr hs hx hk hf hne hsat => exact forInitOption_exprs hr hs hx hk hf hne hsat call

/-- Every call that occurs for a conforming tree prints the content. -/
theorem call_sx {root : Node} {cm : CMap} {cfg : Cfg} (g : Good root cm) (hcm : cfg.cm = cm) :
    ∀ (fuel : Nat) {c : Cls} {x : Loc} {k : Cont} {m : Nat}, Call root cm c x k m →
      W (Bad cfg fuel m) (Prog.new cfg fuel c x) (fun p => Sx (items cm p) k)
  | 0, c, x, k, m, _ => Or.inl ⟨rfl, Nat.zero_le _⟩
  | fuel + 1, c, x, k, m, hc => by
    have call : ∀ {c' x' k' m'}, Call root cm c' x' k' m' → m' < m →
        W (Bad cfg (fuel + 1) m) (Prog.new cfg fuel c' x') (fun p => Sx (items cm p) k') := by
      intro c' x' k' m' h hm
      refine W_bad (call_sx g hcm fuel h) ?_
      rintro e (⟨h1, h2⟩ | h1)
      · exact Or.inl ⟨h1, by omega⟩
      · exact Or.inr h1
    rw [Prog.new]
    exact step_sx g hcm (fun h => Or.inr ⟨rfl, h⟩) hc call

/-- A conforming tree is printed as its content. -/
theorem root_content {root : Node} {cm : CMap} {cfg : Cfg} (g : Good root cm) (hcm : cfg.cm = cm)
    (h : conf root (.cls .root) = true) (fuel : Nat) :
    W (Bad cfg fuel (8 * depth root + 2)) (Prog.new cfg fuel .root (.ofRoot root)) (fun p => Sx (items cm p) (cont cm root)) := by
  have hb : Body (Loc.ofRoot root) := by
    intro hk
    have : root.kind = "local_variable_declaration" := hk
    rw [g.kind] at this
    exact absurd this (by decide)
  have := call_sx g hcm fuel (Call.node (c := .root) (l := .ofRoot root) .root rfl h hb)
  rw [full, pcont_last (x := .ofRoot root) rfl, List.append_nil] at this
  exact this

end Afmt.Gram
