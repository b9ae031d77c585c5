import Verif.Solo.Collect
import Verif.Solo.Print
import Verif.PropsPrinter
import Verif.Ast.Knot

/-!
# Declarations without comments begin with text
-/

namespace Afmt
namespace Solo
open Prog Prog.New

/-! ### No comments -/

/-- No bucket holds a comment. -/
def Quiet (cm : CMap) : Prop := ∀ i b, cm.get? i = some b → b = Bucket.empty

theorem quiet_update {cm : CMap} (h : Quiet cm) {f : Bucket → Bucket} (hf : f Bucket.empty = Bucket.empty) (i : Nat) : Quiet (cm.update f i) := by
  intro j b hb
  rw [get?_update] at hb
  split at hb
  · cases hg : cm.get? i with
    | none => rw [hg] at hb; cases hb; exact hf
    | some x => rw [hg, h i x hg] at hb; cases hb; exact hf
  · exact h j b hb

theorem extras_eq (n : Node) : n.extras = kidsExtras n.id [] n.children := by cases n; rfl

theorem kids_nil {pid : Nat} {lefts : List Node} {c : Node} {r : List Node} (h : kidsExtras pid lefts (c :: r) = []) :
    c.extra = false ∧ c.extras = [] ∧ kidsExtras pid (c :: lefts) r = [] := by
  rw [kidsExtras] at h
  simp only [List.append_eq_nil_iff] at h
  refine ⟨?_, h.1.2, h.2⟩
  cases hc : c.extra with
  | false => rfl
  | true => rw [hc] at h; simp at h

theorem collect_quiet (n : Node) (cm cm' : CMap) (h : collect n cm = .ok cm') : n.extras = [] → Quiet cm → Quiet cm' := by
  refine collect_induct
    (M := fun n cm cm' => n.extras = [] → Quiet cm → Quiet cm')
    (K := fun _ lefts rest st st' => ∀ pid ls, kidsExtras pid ls rest = [] → st.pending = [] → Quiet st.cm → st'.pending = [] ∧ Quiet st'.cm)
    ?_ ?_ ?_ ?_ ?_ ?_ ?_ n cm cm' h
  · intro n cm hv _ hq; exact hq
  · intro n cm hv hc _ hq; exact quiet_update hq rfl _
  · intro n cm st hv hc ih hx hq
    rw [extras_eq] at hx
    obtain ⟨h1, h2⟩ := ih _ _ hx rfl (quiet_update hq rfl _)
    unfold finishPending
    split
    · rw [h1]; exact quiet_update h2 rfl _
    · rw [h1]; exact quiet_update h2 rfl _
  · intro p lefts st pid ls _ hp hq; exact ⟨hp, hq⟩
  · intro p lefts c rights st st' k he hk ih pid ls hx
    have := (kids_nil hx).1
    rw [he] at this
    cases this
  · intro p lefts c rights st st' cm ha ih ih' pid ls hx hp hq
    obtain ⟨_, h2, h3⟩ := kids_nil hx
    refine ih' _ _ h3 rfl (ih h2 ?_)
    unfold flushPending
    rw [hp]
    exact hq
  · intro p lefts c rights st st' ha he ih pid ls hx hp hq
    exact ih _ _ (kids_nil hx).2.2 hp hq

/-! ### What a program begins with -/

mutual
/-- What the document of a program begins with (`Doc.lead`) if there are no comments. -/
def plead : Prog → Option Bool
  | .txt _ => some true
  | .group _ => some true
  | .punct _ => some true
  | .forceBreak | .pre _ | .post _ | .dangling _ | .rootDangling _ | .fail _ => none
  | .indent p => plead p
  | .dedent p => plead p
  | .ifDangling _ _ q => plead q
  | .concat ps => pleads ps
  | _ => some false
/-- `plead` of a list. -/
def pleads : List Prog → Option Bool
  | [] => none
  | p :: ps => match plead p with
    | none => pleads ps
    | some b => some b
end

theorem Quiet.bucket {cm : CMap} (h : Quiet cm) {i : Nat} {b : Bucket} (hb : getBucket cm i = .ok b) : b = Bucket.empty := by
  unfold getBucket at hb
  cases hg : cm.get? i with
  | none => rw [hg] at hb; cases hb
  | some x => rw [hg] at hb; cases hb; exact h i b hg

mutual
theorem build_lead {cm : CMap} (hq : Quiet cm) (k : Nat) : ∀ (p : Prog) (d : Doc) (l : List Comment), p.build k cm = .ok (d, l) → d.lead = plead p
  | .txt s, d, l, e => by simp only [Prog.build] at e; cases e; rfl
  | .nl, d, l, e => by simp only [Prog.build] at e; cases e; rfl
  | .softline, d, l, e => by simp only [Prog.build] at e; cases e; rfl
  | .maybeline, d, l, e => by simp only [Prog.build] at e; cases e; rfl
  | .forceBreak, d, l, e => by simp only [Prog.build] at e; cases e; rfl
  | .sep b, d, l, e => by
    simp only [Prog.build] at e
    cases e
    cases b <;> rfl
  | .fail _, d, l, e => by simp only [Prog.build] at e; cases e
  | .concat ps, d, l, e => by
    simp only [Prog.build] at e
    cases hx : Prog.builds k cm ps with
    | error _ => rw [hx] at e; cases e
    | ok x => rw [hx] at e; cases e; rw [Doc.lead, plead, builds_lead hq k ps x.1 x.2 hx]
  | .group p, d, l, e => by
    simp only [Prog.build] at e
    cases hx : Prog.build k cm p with
    | error _ => rw [hx] at e; cases e
    | ok x => rw [hx] at e; cases e; rfl
  | .indent p, d, l, e => by
    simp only [Prog.build] at e
    cases hx : Prog.build k cm p with
    | error _ => rw [hx] at e; cases e
    | ok x => rw [hx] at e; cases e; rw [plead, ← build_lead hq k p x.1 x.2 hx]; rfl
  | .dedent p, d, l, e => by
    simp only [Prog.build] at e
    cases hx : Prog.build k cm p with
    | error _ => rw [hx] at e; cases e
    | ok x => rw [hx] at e; cases e; rw [plead, ← build_lead hq k p x.1 x.2 hx]; rfl
  | .pre i, d, l, e => by
    simp only [Prog.build] at e
    cases hx : getBucket cm i with
    | error _ => rw [hx] at e; cases e
    | ok x => rw [hx, hq.bucket hx] at e; cases e; rfl
  | .post i, d, l, e => by
    simp only [Prog.build] at e
    cases hx : getBucket cm i with
    | error _ => rw [hx] at e; cases e
    | ok x => rw [hx, hq.bucket hx] at e; cases e; rfl
  | .dangling i, d, l, e => by
    simp only [Prog.build] at e
    cases hx : getBucket cm i with
    | error _ => rw [hx] at e; cases e
    | ok x => rw [hx, hq.bucket hx] at e; cases e
  | .rootDangling i, d, l, e => by
    simp only [Prog.build] at e
    cases hx : getBucket cm i with
    | error _ => rw [hx] at e; cases e
    | ok x => rw [hx, hq.bucket hx] at e; cases e; rfl
  | .punct i, d, l, e => by
    simp only [Prog.build] at e
    cases hx : getBucket cm i.id with
    | error _ => rw [hx] at e; cases e
    | ok x => rw [hx, hq.bucket hx] at e; cases e; rfl
  | .ifDangling i p q, d, l, e => by
    simp only [Prog.build] at e
    cases hx : getBucket cm i with
    | error _ => rw [hx] at e; cases e
    | ok x =>
      rw [hx, hq.bucket hx] at e
      rw [plead]
      exact build_lead hq k q d l (by simpa [Bucket.empty] using e)
theorem builds_lead {cm : CMap} (hq : Quiet cm) (k : Nat) : ∀ (ps : List Prog) (ds : List Doc) (l : List Comment), Prog.builds k cm ps = .ok (ds, l) →
    Doc.leads ds = pleads ps
  | [], ds, l, e => by simp only [Prog.builds] at e; cases e; rfl
  | p :: ps, ds, l, e => by
    simp only [Prog.builds] at e
    cases hx : Prog.build k cm p with
    | error _ => rw [hx] at e; cases e
    | ok x =>
      rw [hx] at e
      simp only at e
      cases hy : Prog.builds k cm ps with
      | error _ => rw [hy] at e; cases e
      | ok y =>
        rw [hy] at e
        cases e
        rw [Doc.leads, pleads, build_lead hq k p x.1 x.2 hx, builds_lead hq k ps y.1 y.2 hy]
        cases plead p <;> rfl
end

/-! ### Declarations -/

/-- The program begins with text or prints nothing. -/
def Soft (p : Prog) : Prop := plead p ≠ some false

theorem pleads_append (ps qs : List Prog) : pleads (ps ++ qs) = match pleads ps with
    | none => pleads qs
    | some b => some b := by
  induction ps with
  | nil => rfl
  | cons p ps ih =>
    rw [List.cons_append, pleads, pleads, ih]
    cases plead p <;> rfl

theorem bwcp_lead (n : Loc) (ms : List Prog) {b : Bool} (h : pleads ms = some b) : plead (bwcp n ms) = some b := by
  unfold bwcp withCommentsAndPunc
  simp only [plead, List.cons_append, pleads, h]

theorem bwc_lead (n : Loc) (ms : List Prog) : plead (bwc n ms) = match pleads ms with
    | none => none
    | some b => some b := by
  unfold bwc withComments
  simp only [plead, pleads, pleads_append]
  cases pleads ms <;> rfl

theorem opt_lead {o : Option Prog} (h : ∀ p, o = some p → Soft p) {ps : List Prog} (hp : pleads ps = some true) : pleads (opt o ++ ps) = some true := by
  rw [pleads_append]
  cases o with
  | none => exact hp
  | some p =>
    have := h p rfl
    simp only [opt, pleads]
    unfold Soft at this
    cases hl : plead p with
    | none => exact hp
    | some b => cases b <;> simp_all

theorem soft_all {ps : List Prog} (h : ∀ p ∈ ps, Soft p) : pleads ps ≠ some false := by
  induction ps with
  | nil => simp [pleads]
  | cons p ps ih =>
    rw [pleads]
    have h1 := h p (.head _)
    unfold Soft at h1
    cases hl : plead p with
    | none => exact ih (fun x hx => h x (.tail _ hx))
    | some b => rw [hl] at h1; exact h1

theorem mapR_all {α : Type} {f : α → R Prog} {P : Prog → Prop} (h : ∀ a p, f a = .ok p → P p) : ∀ (as : List α) (ps : List Prog), mapR f as = .ok ps → ∀ p ∈ ps, P p
  | [], ps, e => by cases e; intro p hp; cases hp
  | a :: as, ps, e => by
    rw [mapR] at e
    cases ha : f a with
    | error _ => rw [ha] at e; cases e
    | ok b =>
      rw [ha] at e
      simp only at e
      cases hb : mapR f as with
      | error _ => rw [hb] at e; cases e
      | ok bs =>
        rw [hb] at e
        cases e
        intro p hp
        cases hp with
        | head => exact h a _ ha
        | tail _ hp => exact mapR_all h as bs hb p hp

theorem modifierKind_lead {n : Loc} {p : Prog} (h : modifierKind n = .ok p) : plead p = some true := by
  unfold modifierKind keyword at h
  split at h
  · cases h; rfl
  · cases h

theorem modifier_lead {cfg : Cfg} {fuel : Nat} {n : Loc} {p : Prog} (h : Prog.new cfg fuel .modifier n = .ok p) : plead p = some true := by
  cases fuel with
  | zero => cases h
  | succ fuel =>
    have h : modifier (Prog.new cfg fuel) n = .ok p := h
    unfold modifier at h
    simp only [bind, Except.bind] at h
    split at h
    · cases h
    split at h
    · cases h
    rename_i l _
    cases hk : Prog.new cfg fuel .modifierKind l with
    | error _ => rw [hk] at h; cases h
    | ok q =>
      rw [hk] at h
      cases h
      cases fuel with
      | zero => cases hk
      | succ fuel => exact bwcp_lead n _ (by rw [pleads, modifierKind_lead (show modifierKind l = .ok q from hk)])

theorem annotation_lead {cfg : Cfg} {fuel : Nat} {n : Loc} {p : Prog} (h : Prog.new cfg fuel .annotation n = .ok p) : plead p = some true := by
  cases fuel with
  | zero => cases h
  | succ fuel =>
    have h : annotation (Prog.new cfg fuel) n = .ok p := h
    unfold annotation at h
    simp only [bind, Except.bind] at h
    repeat' (split at h)
    all_goals first | cases h | skip
    all_goals (rw [plead, pleads, bwcp_lead n _ (b := true) rfl])

theorem modifiers_lead {cfg : Cfg} {fuel : Nat} {n : Loc} {p : Prog} (h : Prog.new cfg fuel .modifiers n = .ok p) : Soft p := by
  cases fuel with
  | zero => cases h
  | succ fuel =>
    have h : modifiers (Prog.new cfg fuel) n = .ok p := h
    unfold modifiers at h
    simp only [bind, Except.bind] at h
    split at h
    · cases h
    cases ha : mapR (Prog.new cfg fuel .annotation) (n.tryCsByK "annotation") with
    | error _ => rw [ha] at h; cases h
    | ok as =>
      rw [ha] at h
      simp only at h
      cases hm : mapR (Prog.new cfg fuel .modifier) (n.tryCsByK "modifier") with
      | error _ => rw [hm] at h; cases h
      | ok ms =>
        rw [hm] at h
        cases h
        have h1 : ∀ p ∈ as, Soft p := fun p hp => by
          have := mapR_all (P := fun p => plead p = some true) (fun a p h => annotation_lead h) _ _ ha p hp
          unfold Soft
          rw [this]
          decide
        unfold Soft
        rw [bwc_lead]
        have h2 : pleads (as ++ (if ms.isEmpty then [] else [Prog.intersperse ms (.s " "), t " "])) ≠ some false := by
          apply soft_all
          intro p hp
          rw [List.mem_append] at hp
          rcases hp with hp | hp
          · exact h1 p hp
          · cases ms with
            | nil => cases hp
            | cons x xs =>
              simp only [List.isEmpty_cons, Bool.false_eq_true, if_false, List.mem_cons, List.not_mem_nil, or_false] at hp
              have hx := mapR_all (P := fun p => plead p = some true) (fun a p h => modifier_lead h) _ _ hm x (.head _)
              rcases hp with rfl | rfl
              · unfold Soft Prog.intersperse
                cases xs with
                | nil => simp only [Prog.intersperseParts, plead, pleads, hx]; decide
                | cons y ys => simp only [Prog.intersperseParts, plead, List.cons_append, pleads, hx]; decide
              · unfold Soft; simp [t, plead]
        split
        · decide
        · rename_i b hb
          rw [hb] at h2
          exact h2

theorem optR_some {f : Loc → R Prog} {o : Option Loc} {r : Option Prog} (h : optR o f = .ok r) {P : Prog → Prop} (hf : ∀ l p, f l = .ok p → P p) :
    ∀ p, r = some p → P p := by
  intro p hp
  subst hp
  cases o with
  | none => cases h
  | some l =>
    cases hl : f l with
    | error _ => simp [optR, hl] at h
    | ok q =>
      simp [optR, hl] at h
      exact hf l p (h ▸ hl)

theorem member_lead {cfg : Cfg} {fuel : Nat} {n : Loc} {p : Prog} (h : Prog.new cfg fuel .rootMember n = .ok p) : plead p = some true := by
  cases fuel with
  | zero => cases h
  | succ fuel =>
    have h : rootMember (Prog.new cfg fuel) n = .ok p := h
    unfold rootMember dispatch at h
    split at h
    · rename_i e he
      have he := List.mem_of_find?_eq_some he
      simp only [List.mem_cons, List.not_mem_nil, or_false] at he
      cases fuel with
      | zero => cases h
      | succ fuel =>
        rcases he with rfl | rfl | rfl | rfl
        · have h : classDeclaration (Prog.new cfg fuel) n = .ok p := h
          unfold classDeclaration at h
          simp only [bind, Except.bind] at h
          split at h
          · cases h
          cases hm : optR (n.tryCByK "modifiers") (Prog.new cfg fuel .modifiers) with
          | error _ => rw [hm] at h; cases h
          | ok ms =>
            rw [hm] at h
            have hs := optR_some hm (P := Soft) (fun l p h => modifiers_lead h)
            simp only at h
            repeat' (split at h)
            all_goals first | cases h | skip
            all_goals exact bwcp_lead n _ (opt_lead hs rfl)
        · have h : enumDeclaration (Prog.new cfg fuel) n = .ok p := h
          unfold enumDeclaration at h
          simp only [bind, Except.bind] at h
          cases hm : optR (n.tryCByK "modifiers") (Prog.new cfg fuel .modifiers) with
          | error _ => rw [hm] at h; cases h
          | ok ms =>
            rw [hm] at h
            have hs := optR_some hm (P := Soft) (fun l p h => modifiers_lead h)
            simp only at h
            repeat' (split at h)
            all_goals first | cases h | skip
            all_goals (rw [List.append_assoc, List.append_assoc]; exact bwcp_lead n _ (opt_lead hs rfl))
        · have h : triggerDeclaration (Prog.new cfg fuel) n = .ok p := h
          unfold triggerDeclaration at h
          simp only [bind, Except.bind] at h
          repeat' (split at h)
          all_goals first | cases h | skip
          all_goals exact bwcp_lead n _ rfl
        · have h : interfaceDeclaration (Prog.new cfg fuel) n = .ok p := h
          unfold interfaceDeclaration at h
          simp only [bind, Except.bind] at h
          split at h
          · cases h
          cases hm : optR (n.tryCByK "modifiers") (Prog.new cfg fuel .modifiers) with
          | error _ => rw [hm] at h; cases h
          | ok ms =>
            rw [hm] at h
            have hs := optR_some hm (P := Soft) (fun l p h => modifiers_lead h)
            simp only at h
            repeat' (split at h)
            all_goals first | cases h | skip
            all_goals (simp only [List.append_assoc]; exact bwcp_lead n _ (opt_lead hs rfl))
    · cases h

end Solo
end Afmt
