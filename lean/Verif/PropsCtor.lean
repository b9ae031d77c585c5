import Verif.PropsChains

/-!
# Property C48: statements of a constructor are indented alike
-/

namespace Afmt.Gram
open Prog New

/-- The documents of the members of a body, each with the flag whether a blank line follows it in the source. -/
inductive Members (cfg : Cfg) (k : Nat) : List Loc → List (Bool × Doc) → Prop
  | nil : Members cfg k [] []
  | cons {c cs t d ms fuel cls p lg} : hasTrailingNewline cfg c = .ok t →
      cls = Cls.constructInvocation ∨ cls = Cls.statement →
      Prog.new cfg fuel cls c = .ok p → p.build k cfg.cm = .ok (d, lg) → Members cfg k cs ms → Members cfg k (c :: cs) ((t, d) :: ms)

/-- The members at indentation `j`, with a line break between any two of them (a blank line where the source has one);
the line breaks have indentation `j`, the first blank line `j₀`. -/
def laid (j₀ j : Nat) (fl : Bool) : List (Bool × Doc) → List Chunk
  | [] => []
  | [(_, d)] => [⟨d, j, fl⟩]
  | (t, d) :: m :: ms => ⟨d, j, fl⟩ :: (if t then ⟨emptyNewLine, j₀, fl⟩ else ⟨nl, j, fl⟩) :: laid j j fl (m :: ms)

/-- A line break at indentation `q` makes what is printed next begin a line indented by `q`. -/
theorem break_indents (w q : Nat) (fl : Bool) (rest : List Chunk) (st : PSt) (br : Doc) (h : br = nl ∨ br = emptyNewLine) :
    (pr w br q fl rest st).pend = some q := by
  rcases h with rfl | rfl
  · rw [nl, pr]
  · simp only [emptyNewLine, pr, prs]

/-- The members are built. -/
inductive Built (k : Nat) (cm : CMap) : List (Bool × Prog) → List (Bool × Doc) → Prop
  | nil : Built k cm [] []
  | cons {t p d lg ms bs} : p.build k cm = .ok (d, lg) → Built k cm ms bs → Built k cm ((t, p) :: ms) ((t, d) :: bs)

theorem exp_body {k : Nat} {cm : CMap} : ∀ (ms : List (Bool × Prog)) (ds : List Doc) (lg : List Comment),
    Prog.builds k cm (bodyParts ms) = .ok (ds, lg) →
    ∃ bs : List (Bool × Doc), Built k cm ms bs ∧ ∀ j fl, row ds j fl = laid j j fl bs
  | [], ds, lg, h => by
    simp only [bodyParts, Prog.builds, Except.ok.injEq, Prod.mk.injEq] at h
    exact ⟨[], .nil, fun _ _ => by rw [← h.1]; rfl⟩
  | [(t, m)], ds, lg, h => by
    rw [bodyParts] at h
    obtain ⟨d, l1, es, l2, h1, h2, rfl⟩ := builds_head h
    simp only [Prog.builds, Except.ok.injEq, Prod.mk.injEq] at h2
    exact ⟨[(t, d)], .cons h1 .nil, fun _ _ => by rw [← h2.1]; rfl⟩
  | (t, m) :: m2 :: ms, ds, lg, h => by
    rw [bodyParts] at h
    · obtain ⟨d, l1, es, l2, h1, h2, rfl⟩ := builds_head h
      obtain ⟨br, l3, fs, l4, h3, h4, rfl⟩ := builds_head h2
      obtain ⟨bs, e1, e2⟩ := exp_body (m2 :: ms) fs l4 h4
      refine ⟨(t, d) :: bs, .cons h1 e1, fun j fl => ?_⟩
      cases e1 with
      | cons _ _ =>
        rw [laid, ← e2]
        have : (⟨br, j, fl⟩ : Chunk) = if t then ⟨emptyNewLine, j, fl⟩ else ⟨nl, j, fl⟩ := by
          cases t <;> simp [Prog.build] at h3 <;> simp [h3.1]
        rw [← this]
        rfl
    · intro e; cases e

theorem exp_intersperse {k : Nat} {cm : CMap} {ms : List (Bool × Prog)} {d : Doc} {lg : List Comment} (hne : ms ≠ [])
    (h : (Prog.indent (intersperseBody ms)).build k cm = .ok (d, lg)) :
    ∃ bs, Built k cm ms bs ∧ ExpandsTo d (fun i fl => laid (i + k) (i + k) fl bs) := by
  rw [Prog.build] at h
  split at h
  · rename_i e _ he
    cases h
    have : (Prog.concat (bodyParts ms)).build k cm = .ok (e, lg) := by
      cases ms with
      | nil => exact absurd rfl hne
      | cons m ms => exact he
    rw [Prog.build] at this
    split at this
    · rename_i ds _ hds
      cases this
      obtain ⟨bs, h1, h2⟩ := exp_body ms ds _ hds
      refine ⟨bs, h1, ?_⟩
      intro i fl rest
      have := exp_indent k (exp_concat ds) i fl rest
      have e : row ds (i + k) fl = laid (i + k) (i + k) fl bs := h2 (i + k) fl
      simp only at this ⊢
      rw [← e]
      exact this
    · cases this
  · cases h

theorem members_of {cfg : Cfg} {k fuel : Nat} : ∀ {cs : List Loc} {ms : List (Bool × Prog)} {bs : List (Bool × Doc)},
    mapR (bodyMember cfg (Prog.new cfg fuel) .statement) cs = .ok ms → Built k cfg.cm ms bs → Members cfg k cs bs
  | [], ms, bs, h, hb => by
    cases h
    cases hb
    exact .nil
  | c :: cs, ms, bs, h, hb => by
    rw [mapR] at h
    split at h
    · cases h
    · rename_i m hm
      split at h
      · cases h
      · rename_i ms' hms
        cases h
        unfold bodyMember at hm
        split at hm
        · cases hm
        · rename_i p hp
          split at hm
          · cases hm
          · rename_i t ht
            cases hm
            cases hb with
            | cons h1 h2 =>
              exact .cons ht (.inr rfl) hp h1 (members_of hms h2)

/-- Does the body start with a call of another constructor? -/
def startsWithCall (n : Loc) : Prop := ∃ c cs, n.childrenVec = c :: cs ∧ c.kind = "explicit_constructor_invocation"

theorem body_parts {k : Nat} {cm : CMap} {n : Nat} {b : Bucket} {q : Prog} {ps : List Prog} {d : Doc} {lg : List Comment}
    (hg : cm.get? n = some b) (hd : b.dangling = [])
    (h : (Prog.concat [.pre n, .ifDangling n q (.concat ps)]).build k cm = .ok (d, lg)) :
    ∃ es l, Prog.builds k cm ps = .ok (es, l) ∧ ∀ f, ExpandsTo (.concat es) f → ExpandsTo d (fun i fl => row (preDocs true b.pre) i fl ++ f i fl) := by
  rw [Prog.build] at h
  split at h
  · rename_i ds _ hds
    cases h
    obtain ⟨d1, _, es1, _, g1, k1, rfl⟩ := builds_head hds
    obtain ⟨d2, _, es2, _, g2, k2, rfl⟩ := builds_head k1
    simp only [Prog.build, Prog.builds, getBucket, hg, Except.ok.injEq, Prod.mk.injEq, hd, ne_eq, not_true_eq_false, if_false] at g1 g2 k2
    cases hm : Prog.builds k cm ps with
    | error e => simp [hm] at g2
    | ok r =>
      simp only [hm, Except.ok.injEq, Prod.mk.injEq] at g2
      refine ⟨_, _, rfl, fun f hf => ?_⟩
      rw [← g1.1, ← k2.1, ← g2.1]
      exact exp_cons (exp_concat _) (exp_one hf)
  · cases h

/-- **C48**: how a constructor body with at least two members and without dangling comments is laid out: every member is printed at the
body's indentation, and so is every line break before a member, except for the line break after a call of `this` or
`super` that is followed by a blank line: that one has the indentation of the braces. -/
theorem C48_layout (cfg : Cfg) (fuel k : Nat) (n : Loc) (p : Prog) (d : Doc) (lg : List Comment) (hq : NoDangling cfg.cm n)
    (hne : 2 ≤ n.childrenVec.length) (hn : Prog.new cfg fuel .constructorBody n = .ok p) (hb : p.build k cfg.cm = .ok (d, lg)) :
    ∃ b ms, cfg.cm.get? n.id = some b ∧ Members cfg k n.childrenVec ms ∧
      (startsWithCall n → ExpandsTo d (fun i fl => row (preDocs true b.pre) i fl ++ ⟨txt ['{'], i, fl⟩ :: ⟨nl, i + k, fl⟩ ::
        laid i (i + k) fl ms ++ [⟨nl, i, fl⟩, ⟨txt ['}'], i, fl⟩])) ∧
      (¬ startsWithCall n → ExpandsTo d (fun i fl => row (preDocs true b.pre) i fl ++ ⟨txt ['{'], i, fl⟩ :: ⟨nl, i + k, fl⟩ ::
        laid (i + k) (i + k) fl ms ++ [⟨nl, i, fl⟩, ⟨txt ['}'], i, fl⟩])) := by
  cases fuel with
  | zero => cases hn
  | succ fuel =>
    change New.constructorBody cfg (Prog.new cfg fuel) n = _ at hn
    unfold New.constructorBody at hn
    cases hcs : n.childrenVec with
    | nil => rw [hcs] at hne; simp at hne
    | cons c cs =>
      cases hg : cfg.cm.get? n.id with
      | none =>
        simp only [hcs, bind, Except.bind] at hn
        split at hn
        · cases hn
        · cases hn
          simp [Prog.build, Prog.builds, getBucket, hg] at hb
      | some b =>
        have hdang := hq b hg
        by_cases hk : c.kind = "explicit_constructor_invocation"
        · simp only [hcs, hk, if_true, bind, Except.bind] at hn
          cases hinv : bodyMember cfg (Prog.new cfg fuel) .constructInvocation c with
          | error e => simp [hinv] at hn
          | ok inv =>
            cases hss : mapR (bodyMember cfg (Prog.new cfg fuel) .statement) cs with
            | error e => simp [hinv, hss] at hn
            | ok ss =>
              simp only [hinv, hss, Except.ok.injEq] at hn
              subst hn
              have hss' : ss ≠ [] := by
                rintro rfl
                cases cs with
                | nil => rw [hcs] at hne; simp at hne
                | cons x xs =>
                  rw [mapR] at hss
                  split at hss
                  · cases hss
                  · split at hss <;> cases hss
              obtain ⟨tr, pi⟩ := inv
              have hbd : constructorBodyDoc (some (tr, pi)) ss = [t "{", .indent (.concat [.nl, pi]),
                  if tr then .sep true else .indent (.sep false), .indent (intersperseBody ss), .nl, t "}"] := by
                cases ss with
                | nil => exact absurd rfl hss'
                | cons m ms => rfl
              rw [hbd] at hb
              obtain ⟨es, _, hes, hexp⟩ := body_parts hg hdang hb
              obtain ⟨d1, _, es1, _, g1, k1, rfl⟩ := builds_head hes
              obtain ⟨d2, _, es2, _, g2, k2, rfl⟩ := builds_head k1
              obtain ⟨d3, _, es3, _, g3, k3, rfl⟩ := builds_head k2
              obtain ⟨d4, _, es4, _, g4, k4, rfl⟩ := builds_head k3
              obtain ⟨d5, _, es5, _, g5, k5, rfl⟩ := builds_head k4
              obtain ⟨d6, _, es6, _, g6, k6, rfl⟩ := builds_head k5
              obtain ⟨bs, hbs, e4⟩ := exp_intersperse hss' g4
              have e2 : ∃ di lg, pi.build k cfg.cm = .ok (di, lg) ∧ d2 = .indent k (.concat [nl, di]) := by
                rw [Prog.build] at g2
                split at g2
                · rename_i x _ hx
                  cases g2
                  rw [Prog.build] at hx
                  split at hx
                  · rename_i y _ hy
                    cases hx
                    obtain ⟨y1, _, y2, _, a1, a2, rfl⟩ := builds_head hy
                    obtain ⟨y3, _, y4, _, a3, a4, rfl⟩ := builds_head a2
                    simp only [Prog.build, Prog.builds, Except.ok.injEq, Prod.mk.injEq] at a1 a4
                    rw [← a1.1, ← a4.1]
                    exact ⟨y3, _, a3, rfl⟩
                  · cases hx
                · cases g2
              obtain ⟨di, li, hdi, rfl⟩ := e2
              have hmem : Members cfg k (c :: cs) ((tr, di) :: bs) := by
                unfold bodyMember at hinv
                split at hinv
                · cases hinv
                · rename_i pp hpp
                  split at hinv
                  · cases hinv
                  · rename_i tt htt
                    cases hinv
                    exact .cons htt (.inl rfl) hpp hdi (members_of hss hbs)
              refine ⟨b, (tr, di) :: bs, rfl, hmem, fun _ => ?_, fun h => absurd ⟨c, cs, hcs, hk⟩ h⟩
              simp only [Prog.t, Prog.build, Prog.builds, Except.ok.injEq, Prod.mk.injEq] at g1 g5 g6 k6
              have e3 : ExpandsTo d3 (fun i fl => [if tr then ⟨emptyNewLine, i, fl⟩ else ⟨nl, i + k, fl⟩]) := by
                cases tr with
                | true =>
                  simp only [if_true, Prog.build, Except.ok.injEq, Prod.mk.injEq] at g3
                  rw [← g3.1]
                  exact exp_self _
                | false =>
                  simp only [Bool.false_eq_true, if_false, Prog.build, Except.ok.injEq, Prod.mk.injEq] at g3
                  rw [← g3.1]
                  exact exp_indent k (exp_self _)
              have := hexp _ (exp_cons (exp_self d1) (exp_cons (exp_indent k (exp_concat [nl, di])) (exp_cons e3 (exp_cons e4
                (exp_cons (exp_self d5) (exp_cons (exp_self d6) (exp_concat es6)))))))
              intro i fl rest
              have := this i fl rest
              rw [← g1.1, ← g5.1, ← g6.1, ← k6.1] at this
              cases hbs with
              | nil => exact absurd rfl hss'
              | cons _ _ =>
                have e1 : "{".toList = ['{'] := by decide
                have e2 : "}".toList = ['}'] := by decide
                rw [e1, e2] at this
                simp only [laid, List.map_cons, List.map_nil, List.append_assoc, List.cons_append, List.nil_append] at this ⊢
                exact this
        · simp only [hcs, hk, if_false, bind, Except.bind] at hn
          cases hss : mapR (bodyMember cfg (Prog.new cfg fuel) .statement) (c :: cs) with
          | error e => simp [hss] at hn
          | ok ss =>
            simp only [hss, Except.ok.injEq] at hn
            subst hn
            have hss' : ss ≠ [] := by
              rintro rfl
              rw [mapR] at hss
              split at hss
              · cases hss
              · split at hss <;> cases hss
            have hbd : constructorBodyDoc none ss = [t "{", .indent .nl, .indent (intersperseBody ss), .nl, t "}"] := by
              cases ss with
              | nil => exact absurd rfl hss'
              | cons m ms => rfl
            rw [hbd] at hb
            obtain ⟨es, _, hes, hexp⟩ := body_parts hg hdang hb
            obtain ⟨d1, _, es1, _, g1, k1, rfl⟩ := builds_head hes
            obtain ⟨d2, _, es2, _, g2, k2, rfl⟩ := builds_head k1
            obtain ⟨d4, _, es4, _, g4, k4, rfl⟩ := builds_head k2
            obtain ⟨d5, _, es5, _, g5, k5, rfl⟩ := builds_head k4
            obtain ⟨d6, _, es6, _, g6, k6, rfl⟩ := builds_head k5
            obtain ⟨bs, hbs, e4⟩ := exp_intersperse hss' g4
            refine ⟨b, bs, rfl, members_of hss hbs, fun h => ?_, fun _ => ?_⟩
            · obtain ⟨c', cs', h1, h2⟩ := h
              rw [hcs] at h1
              cases h1
              exact absurd h2 hk
            · simp only [Prog.t, Prog.build, Prog.builds, Except.ok.injEq, Prod.mk.injEq] at g1 g2 g5 g6 k6
              rw [← g2.1] at hexp
              have := hexp _ (exp_cons (exp_self d1) (exp_cons (exp_indent k (exp_self nl)) (exp_cons e4
                (exp_cons (exp_self d5) (exp_cons (exp_self d6) (exp_concat es6))))))
              intro i fl rest
              have := this i fl rest
              rw [← g1.1, ← g5.1, ← g6.1, ← k6.1] at this
              have e1 : "{".toList = ['{'] := by decide
              have e2 : "}".toList = ['}'] := by decide
              rw [e1, e2] at this
              simp only [List.map_nil, List.append_assoc, List.cons_append, List.nil_append] at this ⊢
              exact this

/-- **C48** where it holds: if the body does not start with a call of another constructor, or no blank line follows that call in the
source, then all members and all line breaks before members have the same indentation.  Missing for the full
statement: bodies with a blank line after the call, for which it is false (next theorem). -/
theorem C48_indented_alike_partial (cfg : Cfg) (fuel k : Nat) (n : Loc) (p : Prog) (d : Doc) (lg : List Comment)
    (hq : NoDangling cfg.cm n) (hne : 2 ≤ n.childrenVec.length) (hn : Prog.new cfg fuel .constructorBody n = .ok p)
    (hb : p.build k cfg.cm = .ok (d, lg))
    (hcall : ∀ c cs, n.childrenVec = c :: cs → c.kind = "explicit_constructor_invocation" → hasTrailingNewline cfg c = .ok false) :
    ∃ b ms, cfg.cm.get? n.id = some b ∧ Members cfg k n.childrenVec ms ∧
      ExpandsTo d (fun i fl => row (preDocs true b.pre) i fl ++ ⟨txt ['{'], i, fl⟩ :: ⟨nl, i + k, fl⟩ ::
        laid (i + k) (i + k) fl ms ++ [⟨nl, i, fl⟩, ⟨txt ['}'], i, fl⟩]) := by
  obtain ⟨b, ms, h1, h2, h3, h4⟩ := C48_layout cfg fuel k n p d lg hq hne hn hb
  by_cases hs : startsWithCall n
  · refine ⟨b, ms, h1, h2, ?_⟩
    have h3 := h3 hs
    obtain ⟨c, cs, hc1, hc2⟩ := hs
    have hf := hcall c cs hc1 hc2
    rw [hc1] at h2
    cases h2 with
    | @cons _ _ t d' ms' _ _ _ _ ht _ _ _ _ =>
      rw [hf] at ht
      cases ht
      have : ∀ i fl, laid i (i + k) fl ((false, d') :: ms') = laid (i + k) (i + k) fl ((false, d') :: ms') := by
        intro i fl
        cases ms' <;> simp [laid]
      simp only [this] at h3
      exact h3
  · exact ⟨b, ms, h1, h2, h4 hs⟩

/-- **C48 is false** if the source has a blank line after the call: the line break before the next statement has the
indentation of the braces. -/
theorem C48_blank_line_outdents (cfg : Cfg) (fuel k : Nat) (n c : Loc) (cs : List Loc) (p : Prog) (d : Doc) (lg : List Comment)
    (hq : NoDangling cfg.cm n) (hcs : n.childrenVec = c :: cs) (hne : cs ≠ []) (hk : c.kind = "explicit_constructor_invocation")
    (ht : hasTrailingNewline cfg c = .ok true) (hn : Prog.new cfg fuel .constructorBody n = .ok p)
    (hb : p.build k cfg.cm = .ok (d, lg)) :
    ∃ b call ms, cfg.cm.get? n.id = some b ∧ Members cfg k (c :: cs) ((true, call) :: ms) ∧
      ExpandsTo d (fun i fl => row (preDocs true b.pre) i fl ++ ⟨txt ['{'], i, fl⟩ :: ⟨nl, i + k, fl⟩ :: ⟨call, i + k, fl⟩ ::
        ⟨emptyNewLine, i, fl⟩ :: laid (i + k) (i + k) fl ms ++ [⟨nl, i, fl⟩, ⟨txt ['}'], i, fl⟩]) := by
  have hlen : 2 ≤ n.childrenVec.length := by
    rw [hcs]
    cases cs with
    | nil => exact absurd rfl hne
    | cons x xs => simp
  obtain ⟨b, ms, h1, h2, h3, -⟩ := C48_layout cfg fuel k n p d lg hq hlen hn hb
  have h3 := h3 ⟨c, cs, hcs, hk⟩
  rw [hcs] at h2
  cases h2 with
  | @cons _ _ t call ms' _ _ _ _ ht' a1 a2 a3 a4 =>
    rw [ht] at ht'
    cases ht'
    cases a4 with
    | nil => exact absurd rfl hne
    | cons b1 b2 b3 b4 b5 =>
      refine ⟨b, call, _, h1, .cons ht a1 a2 a3 (.cons b1 b2 b3 b4 b5), ?_⟩
      simp only [laid, if_true] at h3
      exact h3

/-- The constructor body `{ super(); f(); f(); }` with the statements on the given rows. -/
def exCtorBody (r₁ r₂ r₃ : Nat) : Node := nd "constructor_body" [tk "{",
  exNode 0 "explicit_constructor_invocation" r₁ r₁ "" [exField "constructor" (lf "super" "super"),
    exField "arguments" (nd "argument_list" [tk "(", tk ")"]), tk ";"],
  exNode 0 "expression_statement" r₂ r₂ "" [exCall, tk ";"], exNode 0 "expression_statement" r₃ r₃ "" [exCall, tk ";"], tk "}"]
/-- `class A { A() { ... } }`. -/
def ctorOf (body : Node) : Node := classOf [] [nd "constructor_declaration" [exField "name" (idn "A"),
  exField "parameters" (nd "formal_parameters" [tk "(", tk ")"]), exField "body" body]]

/-- The body of the example. -/
def exCtorLoc (b : Node) : Loc := Loc.ofRoot (numbered 1 b).1

/-- Bodies with and without a blank line meet the hypotheses. -/
example : let n := exCtorLoc (exCtorBody 2 3 5)
    NoDangling (exCfg n.node).cm n ∧ 2 ≤ n.childrenVec.length ∧
    (∃ p d lg, Prog.new (exCfg n.node) 20 .constructorBody n = .ok p ∧ p.build 2 (exCfg n.node).cm = .ok (d, lg)) ∧
    ∀ c cs, n.childrenVec = c :: cs → c.kind = "explicit_constructor_invocation" → hasTrailingNewline (exCfg n.node) c = .ok false := by
  refine ⟨dangling_of (by decide +kernel), by decide +kernel, ⟨_, _, _, rfl, rfl⟩, ?_⟩
  intro c cs h _
  cases h
  rfl
example : let n := exCtorLoc (exCtorBody 2 4 5)
    NoDangling (exCfg n.node).cm n ∧
    (∃ p d lg, Prog.new (exCfg n.node) 20 .constructorBody n = .ok p ∧ p.build 2 (exCfg n.node).cm = .ok (d, lg)) ∧
    ∃ c cs, n.childrenVec = c :: cs ∧ cs ≠ [] ∧ c.kind = "explicit_constructor_invocation" ∧ hasTrailingNewline (exCfg n.node) c = .ok true :=
  ⟨dangling_of (by decide +kernel), ⟨_, _, _, rfl, rfl⟩, _, _, rfl, List.cons_ne_nil _ _, by decide, rfl⟩

/-- Without a blank line the statements are aligned. -/
example : formatTree true 60 ⟨80, 2⟩ (ctorOf (exCtorBody 2 3 5)) =
    .ok "class A {\n  A() {\n    super();\n    f();\n\n    f();\n  }\n}\n".toList := by decide +kernel

/-- **C48 is false**: a whole file with a blank line after `super();`, whose next statement is printed at the
indentation of the braces. -/
theorem C48_outdented_file : Parsed (ctorOf (exCtorBody 2 4 5)) ∧ conforms (ctorOf (exCtorBody 2 4 5)) = true ∧
    formatTree true 60 ⟨80, 2⟩ (ctorOf (exCtorBody 2 4 5)) =
      .ok "class A {\n  A() {\n    super();\n\n  f();\n    f();\n  }\n}\n".toList :=
  ⟨⟨closedB_iff _ (by decide), by decide, by decide⟩, by decide +kernel, by decide +kernel⟩

end Afmt.Gram
