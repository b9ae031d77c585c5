import Verif.Format
import Verif.Segments

/-!
# Content of document programs

`Prog.items` says what a program prints (code and comments, in order) and which comments it marks, without any layout:
no indent size, no documents.  `build_spec` proves that the documents built stand for exactly this content.
-/

namespace Afmt

/-- Items of a list of comments. -/
def commentItems (cs : List Comment) : List Item := cs.map .comment

mutual
/-- Content of a program: items printed and comments marked as printed. -/
def Prog.items (cm : CMap) : Prog → R (List Item × List Comment)
  | .txt s => .ok (codeItem s, [])
  | .nl | .softline | .maybeline | .forceBreak | .sep _ => .ok ([], [])
  | .concat ps => Prog.itemss cm ps
  | .group p | .indent p | .dedent p => Prog.items cm p
  | .pre id =>
    match getBucket cm id with
    | .ok b => .ok (commentItems b.pre, b.pre)
    | .error e => .error e
  | .post id =>
    match getBucket cm id with
    | .ok b => .ok (commentItems b.post, b.post)
    | .error e => .error e
  | .dangling id =>
    match getBucket cm id with
    | .ok b => if b.dangling = [] then .error .unsupported else .ok (commentItems b.dangling, b.dangling)
    | .error e => .error e
  | .rootDangling id =>
    match getBucket cm id with
    | .ok b => .ok (commentItems b.dangling, [])
    | .error e => .error e
  | .punct p =>
    match getBucket cm p.id with
    | .ok b =>
      .ok (commentItems (b.pre.filter (fun c => !c.isLine)) ++ (codeItem p.text ++
        commentItems (b.pre.filter Comment.isLine ++ b.post)), b.pre ++ b.post)
    | .error e => .error e
  | .ifDangling id p q =>
    match getBucket cm id with
    | .ok b => if b.dangling ≠ [] then Prog.items cm p else Prog.items cm q
    | .error e => .error e
  | .fail e => .error e
def Prog.itemss (cm : CMap) : List Prog → R (List Item × List Comment)
  | [] => .ok ([], [])
  | p :: ps =>
    match Prog.items cm p with
    | .error e => .error e
    | .ok (is, l) =>
      match Prog.itemss cm ps with
      | .error e => .error e
      | .ok (js, l') => .ok (is ++ js, l ++ l')
end

/-! ### Handlers -/

theorem items_emptyNewLine : Doc.Items emptyNewLine [] := by
  have := Doc.ItemsL.cons Doc.Items.newlineWithNoIndent (Doc.ItemsL.cons Doc.Items.newline .nil)
  exact .concat (by simpa using this)

theorem items_space : Doc.Items (txt [' ']) [] := by
  have := Doc.Items.text [' '] (byteLen [' '])
  rwa [show codeItem [' '] = [] from rfl] at this

theorem items_nl : Doc.Items nl [] := .newline

theorem items_postLead (c : Comment) : Doc.Items (postLead c) [] := by
  unfold postLead
  split
  · exact items_space
  · split
    · exact items_emptyNewLine
    · exact items_nl

theorem items_postTrail (c : Comment) : Doc.ItemsL (postTrail c) [] := by
  unfold postTrail
  split
  · exact .single items_space
  · exact .nil

theorem items_postDocs (cs : List Comment) (h : ∀ c ∈ cs, c.Tidy) : Doc.ItemsL (postDocs cs) (commentItems cs) := by
  induction cs with
  | nil => exact .nil
  | cons c cs ih =>
    have h1 := ih (fun x hx => h x (by simp [hx]))
    have := Doc.ItemsL.cons (items_postLead c) (.cons (.comment c (h c (by simp))) ((items_postTrail c).append h1))
    simpa [postDocs, commentItems] using this

theorem items_preDocs (cs : List Comment) (h : ∀ c ∈ cs, c.Tidy) : ∀ first,
    Doc.ItemsL (preDocs first cs) (commentItems cs) := by
  induction cs with
  | nil => intro _; exact .nil
  | cons c cs ih =>
    intro first
    have h1 := ih (fun x hx => h x (by simp [hx])) false
    have hA : Doc.ItemsL (if c.meta'.hasLeadingContent then [txt [' ']]
        else Doc.forceBreak :: (if first then [] else if c.meta'.hasEmptyLineAbove then [emptyNewLine] else [nl])) [] := by
      split
      · exact .single items_space
      · have : Doc.ItemsL (if first then [] else if c.meta'.hasEmptyLineAbove then [emptyNewLine] else [nl]) [] := by
          split
          · exact .nil
          · split
            · exact .single items_emptyNewLine
            · exact .single items_nl
        have := Doc.ItemsL.cons Doc.Items.forceBreak this
        simpa using this
    have hB : Doc.ItemsL (if c.meta'.hasTrailingContent then [txt [' ']]
        else if cs = [] then (if c.meta'.hasEmptyLineBelow then [emptyNewLine] else [nl]) else []) [] := by
      split
      · exact .single items_space
      · split
        · split
          · exact .single items_emptyNewLine
          · exact .single items_nl
        · exact .nil
    have := ((hA.append (.single (.comment c (h c (by simp))))).append hB).append h1
    simpa [preDocs, commentItems] using this

theorem items_danglingDocs (cs : List Comment) (h : ∀ c ∈ cs, c.Tidy) :
    Doc.ItemsL (danglingDocs cs) (commentItems cs) := by
  induction cs with
  | nil => exact .nil
  | cons c cs ih =>
    have h1 := ih (fun x hx => h x (by simp [hx]))
    have hA : Doc.ItemsL (if c.meta'.hasLeadingContent then [txt [' ']]
        else if c.meta'.hasEmptyLineAbove then [emptyNewLine]
        else if c.meta'.hasPrevNode then [nl] else []) [] := by
      split
      · exact .single items_space
      · split
        · exact .single items_emptyNewLine
        · split
          · exact .single items_nl
          · exact .nil
    have := (hA.append (.single (.comment c (h c (by simp))))).append h1
    simpa [danglingDocs, commentItems] using this

theorem items_map_build (cs : List Comment) (h : ∀ c ∈ cs, c.Tidy) :
    Doc.ItemsL (cs.map Comment.build) (commentItems cs) := by
  induction cs with
  | nil => exact .nil
  | cons c cs ih => exact .cons (.comment c (h c (by simp))) (ih (fun x hx => h x (by simp [hx])))

theorem items_puncDocs (b : Bucket) (p : Punc) (h : ∀ c ∈ b.all, c.Tidy) :
    Doc.ItemsL (puncDocs b p) (commentItems (b.pre.filter (fun c => !c.isLine)) ++ (codeItem p.text ++
        commentItems (b.pre.filter Comment.isLine ++ b.post))) := by
  have h1 := items_postDocs (b.pre.filter (fun c => !c.isLine))
    (fun c hc => h c (by simp only [Bucket.all, List.mem_append]; exact .inl (.inl ((List.mem_filter.1 hc).1))))
  have h2 := items_postDocs (b.pre.filter Comment.isLine ++ b.post) (by
    intro c hc
    rcases List.mem_append.1 hc with hc | hc
    · exact h c (by simp only [Bucket.all, List.mem_append]; exact .inl (.inl ((List.mem_filter.1 hc).1)))
    · exact h c (by simp only [Bucket.all, List.mem_append]; exact .inl (.inr hc)))
  have := (h1.append (.single (.text p.text (byteLen p.text)))).append h2
  simpa [puncDocs, txt] using this

/-! ### Uniform indentation and widths of comment documents -/

/-- Documents without indentation: all leaves carry their width and there is no indent or dedent. -/
def Doc.Plain (k : Nat) (d : Doc) : Prop := d.Uniform k ∧ d.WidthOk

theorem plain_txt (k : Nat) (s : Str) : Doc.Plain k (txt s) := by simp [Doc.Plain, txt, Doc.Uniform, Doc.WidthOk, Doc.AllText]
theorem plain_nl (k : Nat) : Doc.Plain k nl := by simp [Doc.Plain, nl, Doc.Uniform, Doc.WidthOk, Doc.AllText]
theorem plain_forceBreak (k : Nat) : Doc.Plain k .forceBreak := by simp [Doc.Plain, Doc.Uniform, Doc.WidthOk, Doc.AllText]
theorem plain_emptyNewLine (k : Nat) : Doc.Plain k emptyNewLine := by
  simp [Doc.Plain, emptyNewLine, Doc.Uniform, Doc.Uniforms, Doc.WidthOk, Doc.AllText, Doc.AllTexts]

theorem plain_concat {k : Nat} {ds : List Doc} (h : ∀ d ∈ ds, Doc.Plain k d) : Doc.Plain k (.concat ds) := by
  refine ⟨?_, ?_⟩
  · simp only [Doc.Uniform]; exact Doc.uniforms_iff.2 fun d hd => (h d hd).1
  · simp only [Doc.WidthOk, Doc.AllText]; exact Doc.allTexts_iff.2 fun d hd => (h d hd).2

theorem plain_linesDoc (k : Nat) (ls : List Str) : ∀ d ∈ linesDoc ls, Doc.Plain k d := by
  induction ls with
  | nil => simp [linesDoc]
  | cons l ls ih =>
    cases ls with
    | nil => simp [linesDoc, plain_txt]
    | cons m ms =>
      intro d hd
      simp only [linesDoc, List.mem_cons] at hd
      rcases hd with rfl | rfl | hd
      · exact plain_txt k l
      · exact plain_nl k
      · exact ih d (by simpa [linesDoc] using hd)

theorem plain_comment (k : Nat) (c : Comment) : Doc.Plain k c.build := by
  unfold Comment.build
  cases c.type with
  | line => exact plain_concat (by simp [plain_txt, plain_nl])
  | block => exact plain_concat (plain_linesDoc k _)

theorem plain_postDocs (k : Nat) (cs : List Comment) : ∀ d ∈ postDocs cs, Doc.Plain k d := by
  induction cs with
  | nil => simp [postDocs]
  | cons c cs ih =>
    intro d hd
    simp only [postDocs, List.mem_cons, List.mem_append] at hd
    rcases hd with rfl | rfl | hd | hd
    · unfold postLead
      split
      · exact plain_txt _ _
      · split
        · exact plain_emptyNewLine k
        · exact plain_nl k
    · exact plain_comment k c
    · unfold postTrail at hd
      split at hd
      · simp at hd; subst hd; exact plain_txt _ _
      · simp at hd
    · exact ih d hd

theorem plain_preDocs (k : Nat) (cs : List Comment) : ∀ first, ∀ d ∈ preDocs first cs, Doc.Plain k d := by
  induction cs with
  | nil => simp [preDocs]
  | cons c cs ih =>
    intro first d hd
    simp only [preDocs, List.mem_append] at hd
    rcases hd with ((hd | hd) | hd) | hd
    · split at hd
      · simp at hd; subst hd; exact plain_txt _ _
      · rcases List.mem_cons.1 hd with rfl | hd
        · exact plain_forceBreak k
        · split at hd
          · simp at hd
          · split at hd
            · simp at hd; subst hd; exact plain_emptyNewLine k
            · simp at hd; subst hd; exact plain_nl k
    · simp at hd; subst hd; exact plain_comment k c
    · split at hd
      · simp at hd; subst hd; exact plain_txt _ _
      · split at hd
        · split at hd
          · simp at hd; subst hd; exact plain_emptyNewLine k
          · simp at hd; subst hd; exact plain_nl k
        · simp at hd
    · exact ih false d hd

theorem plain_danglingDocs (k : Nat) (cs : List Comment) : ∀ d ∈ danglingDocs cs, Doc.Plain k d := by
  induction cs with
  | nil => simp [danglingDocs]
  | cons c cs ih =>
    intro d hd
    simp only [danglingDocs, List.mem_append] at hd
    rcases hd with (hd | hd) | hd
    · split at hd
      · simp at hd; subst hd; exact plain_txt _ _
      · split at hd
        · simp at hd; subst hd; exact plain_emptyNewLine k
        · split at hd
          · simp at hd; subst hd; exact plain_nl k
          · simp at hd
    · simp at hd; subst hd; exact plain_comment k c
    · exact ih d hd

/-! ### Build and content agree -/

theorem getBucket_mem {cm : CMap} {id : Nat} {b : Bucket} (h : getBucket cm id = .ok b) : ∀ c ∈ b.all, c ∈ cm.all := by
  unfold getBucket at h
  cases hg : cm.get? id with
  | none => simp [hg] at h
  | some b' =>
    simp only [hg, Except.ok.injEq] at h
    subst h
    unfold CMap.get? at hg
    obtain ⟨p, hp, e⟩ := Option.map_eq_some_iff.1 hg
    have := List.mem_of_find?_eq_some hp
    intro c hc
    simp only [CMap.all, List.mem_flatten, List.mem_map]
    exact ⟨p.2.all, ⟨p, this, rfl⟩, by rw [e]; exact hc⟩

/-- What `build` does compared to the content semantics. -/
def Agree (k : Nat) (x : R (Doc × List Comment)) (y : R (List Item × List Comment)) : Prop :=
  match y with
  | .error e => x = .error e
  | .ok (is, log) => ∃ d, x = .ok (d, log) ∧ d.Items is ∧ d.Plain k

/-- The same for sequences. -/
def Agrees (k : Nat) (x : R (List Doc × List Comment)) (y : R (List Item × List Comment)) : Prop :=
  match y with
  | .error e => x = .error e
  | .ok (is, log) => ∃ ds, x = .ok (ds, log) ∧ Doc.ItemsL ds is ∧ ∀ d ∈ ds, Doc.Plain k d

mutual
theorem build_spec (k : Nat) (cm : CMap) (ht : ∀ c ∈ cm.all, c.Tidy) : ∀ p : Prog,
    Agree k (p.build k cm) (p.items cm)
  | .txt s => ⟨_, rfl, .text s _, plain_txt k s⟩
  | .nl => ⟨_, rfl, .newline, plain_nl k⟩
  | .softline => ⟨_, rfl, .softline, by simp [Doc.Plain, Doc.Uniform, Doc.WidthOk, Doc.AllText]⟩
  | .maybeline => ⟨_, rfl, .maybeline, by simp [Doc.Plain, Doc.Uniform, Doc.WidthOk, Doc.AllText]⟩
  | .forceBreak => ⟨_, rfl, .forceBreak, plain_forceBreak k⟩
  | .sep true => ⟨_, rfl, items_emptyNewLine, plain_emptyNewLine k⟩
  | .sep false => ⟨_, rfl, .newline, plain_nl k⟩
  | .concat ps => by
      have h := builds_spec k cm ht ps
      simp only [Prog.build, Prog.items]
      cases hy : Prog.itemss cm ps with
      | error e => rw [hy] at h; simp only [Agrees] at h; simp [Agree, h]
      | ok y =>
        rw [hy] at h
        obtain ⟨ds, e, h1, h2⟩ := h
        rw [e]
        exact ⟨_, rfl, .concat h1, plain_concat h2⟩
  | .group p => by
      have h := build_spec k cm ht p
      simp only [Prog.build, Prog.items]
      cases hy : Prog.items cm p with
      | error e => rw [hy] at h; simp only [Agree] at h; simp [Agree, h]
      | ok y =>
        rw [hy] at h
        obtain ⟨d, e, h1, h2⟩ := h
        rw [e]
        refine ⟨_, rfl, .group h1, ?_⟩
        simp [Doc.Plain, group, Doc.Uniform, Doc.WidthOk, Doc.AllText, h2.1]
        exact h2.2
  | .indent p => by
      have h := build_spec k cm ht p
      simp only [Prog.build, Prog.items]
      cases hy : Prog.items cm p with
      | error e => rw [hy] at h; simp only [Agree] at h; simp [Agree, h]
      | ok y =>
        rw [hy] at h
        obtain ⟨d, e, h1, h2⟩ := h
        rw [e]
        refine ⟨_, rfl, .indent h1, ?_⟩
        simp [Doc.Plain, indentDoc, Doc.Uniform, Doc.WidthOk, Doc.AllText, h2.1]
        exact h2.2
  | .dedent p => by
      have h := build_spec k cm ht p
      simp only [Prog.build, Prog.items]
      cases hy : Prog.items cm p with
      | error e => rw [hy] at h; simp only [Agree] at h; simp [Agree, h]
      | ok y =>
        rw [hy] at h
        obtain ⟨d, e, h1, h2⟩ := h
        rw [e]
        refine ⟨_, rfl, .dedent h1, ?_⟩
        simp [Doc.Plain, dedentDoc, Doc.Uniform, Doc.WidthOk, Doc.AllText, h2.1]
        exact h2.2
  | .pre id => by
      simp only [Prog.build, Prog.items]
      cases hb : getBucket cm id with
      | error e => rfl
      | ok b =>
        have := getBucket_mem hb
        exact ⟨_, rfl, .concat (items_preDocs _ (fun c hc => ht c (this c (by simp [Bucket.all, hc]))) true),
          plain_concat (plain_preDocs k _ _)⟩
  | .post id => by
      simp only [Prog.build, Prog.items]
      cases hb : getBucket cm id with
      | error e => rfl
      | ok b =>
        have := getBucket_mem hb
        exact ⟨_, rfl, .concat (items_postDocs _ (fun c hc => ht c (this c (by simp [Bucket.all, hc])))),
          plain_concat (plain_postDocs k _)⟩
  | .dangling id => by
      simp only [Prog.build, Prog.items]
      cases hb : getBucket cm id with
      | error e => rfl
      | ok b =>
        have := getBucket_mem hb
        simp only []
        split
        · rfl
        · exact ⟨_, rfl, .concat (items_danglingDocs _ (fun c hc => ht c (this c (by simp [Bucket.all, hc])))),
            plain_concat (plain_danglingDocs k _)⟩
  | .rootDangling id => by
      simp only [Prog.build, Prog.items]
      cases hb : getBucket cm id with
      | error e => rfl
      | ok b =>
        have := getBucket_mem hb
        refine ⟨_, rfl, .concat (items_map_build _ (fun c hc => ht c (this c (by simp [Bucket.all, hc])))), ?_⟩
        refine plain_concat fun d hd => ?_
        obtain ⟨c, _, rfl⟩ := List.mem_map.1 hd
        exact plain_comment k c
  | .punct p => by
      simp only [Prog.build, Prog.items]
      cases hb : getBucket cm p.id with
      | error e => rfl
      | ok b =>
        have := getBucket_mem hb
        refine ⟨_, rfl, .concat (items_puncDocs b p (fun c hc => ht c (this c hc))), plain_concat fun d hd => ?_⟩
        simp only [puncDocs, List.mem_append, List.mem_cons, List.not_mem_nil, or_false] at hd
        rcases hd with (hd | rfl) | hd
        · exact plain_postDocs k _ d hd
        · exact plain_txt _ _
        · exact plain_postDocs k _ d hd
  | .ifDangling id p q => by
      simp only [Prog.build, Prog.items]
      cases hb : getBucket cm id with
      | error e => rfl
      | ok b =>
        simp only []
        split
        · exact build_spec k cm ht p
        · exact build_spec k cm ht q
  | .fail e => rfl
theorem builds_spec (k : Nat) (cm : CMap) (ht : ∀ c ∈ cm.all, c.Tidy) : ∀ ps : List Prog,
    Agrees k (Prog.builds k cm ps) (Prog.itemss cm ps)
  | [] => ⟨[], rfl, .nil, by simp⟩
  | p :: ps => by
      have h := build_spec k cm ht p
      have hs := builds_spec k cm ht ps
      simp only [Prog.builds, Prog.itemss]
      cases hy : Prog.items cm p with
      | error e => rw [hy] at h; simp only [Agree] at h; simp [Agrees, h]
      | ok y =>
        rw [hy] at h
        obtain ⟨d, e, h1, h2⟩ := h
        rw [e]
        simp only []
        cases hys : Prog.itemss cm ps with
        | error e => rw [hys] at hs; simp only [Agrees] at hs; simp [Agrees, hs]
        | ok ys =>
          rw [hys] at hs
          obtain ⟨ds, e, h3, h4⟩ := hs
          rw [e]
          refine ⟨_, rfl, .cons h1 h3, ?_⟩
          intro x hx
          rcases List.mem_cons.1 hx with rfl | hx
          · exact h2
          · exact h4 x hx
end

/-! ### Marked comments are printed -/

@[simp] theorem commentsOf_append (a b : List Item) : commentsOf (a ++ b) = commentsOf a ++ commentsOf b := by
  simp [commentsOf]
@[simp] theorem commentsOf_commentItems (cs : List Comment) : commentsOf (commentItems cs) = cs := by
  simp [commentsOf, commentItems, List.filterMap_map, Function.comp_def]
@[simp] theorem commentsOf_codeItem (s : Str) : commentsOf (codeItem s) = [] := by
  unfold codeItem; split <;> simp [commentsOf]

/-- `l` is contained in `m`, counting multiplicity. -/
def Within {α : Type} (l m : List α) : Prop := ∃ extra, m.Perm (l ++ extra)

theorem Within.nil {α : Type} (m : List α) : Within [] m := ⟨m, by simp⟩
theorem Within.refl {α : Type} (m : List α) : Within m m := ⟨[], by simp⟩
theorem Within.map {α β : Type} (f : α → β) {l m : List α} (h : Within l m) : Within (l.map f) (m.map f) := by
  obtain ⟨x, hx⟩ := h
  exact ⟨x.map f, by simpa using hx.map f⟩
theorem Within.append {α : Type} {l m l' m' : List α} (h : Within l m) (h' : Within l' m') : Within (l ++ l') (m ++ m') := by
  obtain ⟨x, hx⟩ := h
  obtain ⟨y, hy⟩ := h'
  refine ⟨x ++ y, (hx.append hy).trans ?_⟩
  rw [List.append_assoc, List.append_assoc]
  refine List.Perm.append_left l ?_
  rw [← List.append_assoc, ← List.append_assoc]
  exact List.Perm.append_right y List.perm_append_comm
theorem Within.mem {α : Type} {l m : List α} (h : Within l m) {c : α} (hc : c ∈ l) : c ∈ m := by
  obtain ⟨x, hx⟩ := h
  exact hx.mem_iff.2 (by simp [hc])

theorem within_of_nodup {l m : List Comment} (hn : l.Nodup) (h : ∀ c ∈ l, c ∈ m) : Within l m := by
  induction l generalizing m with
  | nil => exact .nil m
  | cons a l ih =>
    have ha := h a (by simp)
    have hp := List.perm_cons_erase ha
    rw [List.nodup_cons] at hn
    obtain ⟨x, hx⟩ := ih (m := m.erase a) hn.2 (by
      intro c hc
      have : c ∈ a :: m.erase a := hp.mem_iff.1 (h c (by simp [hc]))
      rcases List.mem_cons.1 this with rfl | h
      · exact absurd hc hn.1
      · exact h)
    exact ⟨x, hp.trans (by simpa using hx.cons a)⟩

mutual
/-- The comments marked are among the comments printed, with multiplicity. -/
theorem items_log (cm : CMap) : ∀ (p : Prog) (is : List Item) (log : List Comment), p.items cm = .ok (is, log) →
    Within log (commentsOf is)
  | .txt s, is, log, h => by simp only [Prog.items, Except.ok.injEq, Prod.mk.injEq] at h; rw [← h.2]; exact .nil _
  | .nl, is, log, h | .softline, is, log, h | .maybeline, is, log, h | .forceBreak, is, log, h
  | .sep _, is, log, h => by
      simp only [Prog.items, Except.ok.injEq, Prod.mk.injEq] at h; rw [← h.2]; exact .nil _
  | .concat ps, is, log, h => itemss_log cm ps is log h
  | .group p, is, log, h | .indent p, is, log, h | .dedent p, is, log, h => items_log cm p is log h
  | .pre id, is, log, h | .post id, is, log, h => by
      simp only [Prog.items] at h
      split at h
      · simp only [Except.ok.injEq, Prod.mk.injEq] at h
        rw [← h.1, ← h.2]; simp [Within.refl]
      · cases h
  | .dangling id, is, log, h => by
      simp only [Prog.items] at h
      split at h
      · split at h
        · cases h
        · simp only [Except.ok.injEq, Prod.mk.injEq] at h
          rw [← h.1, ← h.2]; simp [Within.refl]
      · cases h
  | .rootDangling id, is, log, h => by
      simp only [Prog.items] at h
      split at h
      · simp only [Except.ok.injEq, Prod.mk.injEq] at h
        rw [← h.2]; exact .nil _
      · cases h
  | .punct p, is, log, h => by
      simp only [Prog.items] at h
      split at h
      · rename_i b _
        simp only [Except.ok.injEq, Prod.mk.injEq] at h
        rw [← h.1, ← h.2]
        simp only [commentsOf_append, commentsOf_commentItems, commentsOf_codeItem, List.nil_append]
        refine ⟨[], ?_⟩
        rw [← List.append_assoc, List.append_nil]
        refine List.Perm.append_right _ ?_
        exact (List.perm_append_comm.trans (List.filter_append_perm Comment.isLine b.pre))
      · cases h
  | .ifDangling id p q, is, log, h => by
      simp only [Prog.items] at h
      split at h
      · split at h
        · exact items_log cm p is log h
        · exact items_log cm q is log h
      · cases h
  | .fail e, is, log, h => by cases h
theorem itemss_log (cm : CMap) : ∀ (ps : List Prog) (is : List Item) (log : List Comment),
    Prog.itemss cm ps = .ok (is, log) → Within log (commentsOf is)
  | [], is, log, h => by simp only [Prog.itemss, Except.ok.injEq, Prod.mk.injEq] at h; rw [← h.2]; exact .nil _
  | p :: ps, is, log, h => by
      simp only [Prog.itemss] at h
      split at h
      · cases h
      · rename_i is1 l1 h1
        split at h
        · cases h
        · rename_i is2 l2 h2
          simp only [Except.ok.injEq, Prod.mk.injEq] at h
          rw [← h.1, ← h.2, commentsOf_append]
          exact (items_log cm p _ _ h1).append (itemss_log cm ps _ _ h2)
end

end Afmt
