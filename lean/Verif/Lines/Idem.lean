import Verif.Lines.Again

/-!
# The formatted text of a tree without comments
-/

namespace Afmt.Lines
open Gram

/-! ### No comments -/

theorem get_in {cm : CMap} {id : Nat} {b : Bucket} (h : cm.get? id = some b) : ∃ p ∈ cm, p.2 = b := by
  unfold CMap.get? at h
  rw [Option.map_eq_some_iff] at h
  obtain ⟨p, hp, rfl⟩ := h
  exact ⟨p, List.mem_of_find?_eq_some hp, rfl⟩

theorem all_nil {cm : CMap} (h : cm.all = []) {id : Nat} {b : Bucket} (hb : cm.get? id = some b) :
    b.pre = [] ∧ b.post = [] ∧ b.dangling = [] := by
  obtain ⟨p, hp, rfl⟩ := get_in hb
  have h1 : p.2.all = [] := by
    unfold CMap.all at h
    rw [List.flatten_eq_nil_iff] at h
    exact h _ (List.mem_map_of_mem hp)
  simp only [Bucket.all, List.append_eq_nil_iff] at h1
  exact ⟨h1.1.1, h1.1.2, h1.2⟩

theorem silent_of {cm : CMap} (h : cm.all = []) : Silent cm := by
  intro id b hb
  unfold getBucket at hb
  cases hg : cm.get? id with
  | none => rw [hg] at hb; cases hb
  | some b' => rw [hg] at hb; cases hb; exact all_nil h hg

theorem noPost_of {cm : CMap} (h : cm.all = []) : NoPost cm := by
  intro id
  cases hg : cm.get? id with
  | none => rfl
  | some b => simp [(all_nil h hg).2.1]

/-! ### Trimmed texts -/

/-- Text and kind of a node are trimmed. -/
def Trim (n : Node) : Prop := Tidy n.text ∧ Tidy n.kind.toList

theorem tidy_of {s : Str} (h : trimmed s = true) : Tidy s := by
  unfold Tidy Edge
  simp only [trimmed, Bool.and_eq_true, Bool.not_eq_true', Option.all_eq_true] at h
  refine ⟨⟨?_, ?_⟩, ?_⟩
  · intro c hc; simpa using h.1.2 c hc
  · intro c hc; simpa using h.2 c hc
  · intro hn; rw [hn] at h; exact absurd h.1.1 (by decide)

mutual
theorem neat_all : ∀ n : Node, neat n = true → All Trim n
  | .mk id kind named extra err field sr er sb eb text children, h => by
    rw [neat, Bool.and_eq_true, Bool.and_eq_true] at h
    exact .mk ⟨tidy_of h.1.1, tidy_of h.1.2⟩ (neats_all children h.2)
theorem neats_all : ∀ ns : List Node, neats ns = true → ∀ c ∈ ns, All Trim c
  | [], _, c, hc => by cases hc
  | n :: ns, h, c, hc => by
    rw [neats, Bool.and_eq_true] at h
    rcases List.mem_cons.1 hc with e | hc
    · rw [e]; exact neat_all n h.1
    · exact neats_all ns h.2 c hc
end

theorem Tidy.ink {s : Str} (h : Tidy s) : ink s ≠ [] := by unfold Tidy at h; exact h.2

mutual
theorem code_all : ∀ n : Node, plain n = true → All Trim n → All (fun x => code x ≠ []) n
  | .mk id kind named extra err field sr er sb eb text children, hx, h => by
    rw [plain, Bool.and_eq_true, Bool.not_eq_true'] at hx
    obtain ⟨rfl, hx⟩ := hx
    have hk := codes_all children hx (fun c hc => h.kid hc)
    refine .mk ?_ hk
    cases children with
    | nil =>
      have := Tidy.ink h.here.1
      simp only [code, Bool.false_eq_true, if_false]
      intro hn
      exact this (List.map_eq_nil_iff.1 hn)
    | cons c cs =>
      simp only [code, Bool.false_eq_true, if_false]
      intro hn
      exact (hk c (by simp)).here (List.append_eq_nil_iff.1 hn).1
theorem codes_all : ∀ ns : List Node, plains ns = true → (∀ c ∈ ns, All Trim c) → ∀ c ∈ ns, All (fun x => code x ≠ []) c
  | [], _, _, c, hc => by cases hc
  | n :: ns, hx, h, c, hc => by
    rw [plains, Bool.and_eq_true] at hx
    rcases List.mem_cons.1 hc with e | hc
    · rw [e]; exact code_all n hx.1 (h n (by simp))
    · exact codes_all ns hx.2 (fun d hd => h d (by simp [hd])) c hc
end

theorem plain_kid : ∀ {ns : List Node}, plains ns = true → ∀ c ∈ ns, plain c = true
  | [], _, c, hc => by cases hc
  | n :: ns, h, c, hc => by
    rw [plains, Bool.and_eq_true] at h
    rcases List.mem_cons.1 hc with rfl | hc
    · exact h.1
    · exact plain_kid h.2 c hc

theorem plain_all : ∀ n : Node, plain n = true → All (fun x => x.extra = false) n
  | .mk id kind named extra err field sr er sb eb text children, h => by
    rw [plain, Bool.and_eq_true, Bool.not_eq_true'] at h
    exact .mk h.1 (fun c hc => plain_all c (plain_kid h.2 c hc))

theorem child_of {l : Loc} {c : Node} (h : c ∈ l.node.children) : ∃ x ∈ l.children, x.node = c := by
  have := childrenGo_map l [] l.node.children
  rw [← this] at h
  obtain ⟨x, hx, e⟩ := List.mem_map.1 h
  exact ⟨x, hx, e⟩

theorem tidyTree_of {root : Node} (h : All Trim root) (hf : All Frame root) (hx : All (fun x => x.extra = false) root) : TidyTree root := by
  refine ⟨fun l hl => (h.at hl).here.1, fun l hl => (h.at hl).here.2, ?_, ?_⟩
  · intro l hl hk
    obtain ⟨c, hc, hn⟩ := (hf.at hl).here.full hk
    obtain ⟨x, hxl, rfl⟩ := child_of hc
    have he := ((hx.at hl).kid hc).here
    refine List.ne_nil_of_mem (a := x) ?_
    unfold Loc.childrenVec Loc.namedChildren
    rw [List.mem_filter, List.mem_filter]
    exact ⟨⟨hxl, hn⟩, by simp [Loc.extra, he]⟩
  · intro l hl hk
    obtain ⟨c, hc, hn, hk⟩ := (hf.at hl).here.mods hk
    obtain ⟨x, hxl, rfl⟩ := child_of hc
    have key : ∀ k, x.node.kind = k → l.tryCsByK k ≠ [] := by
      intro k hk
      refine List.ne_nil_of_mem (a := x) ?_
      unfold Loc.tryCsByK Loc.namedChildren
      rw [List.mem_filter, List.mem_filter]
      exact ⟨⟨hxl, hn⟩, by simp [Loc.kind, hk]⟩
    rcases hk with hk | hk
    · exact .inl (key _ hk)
    · exact .inr (key _ hk)

/-! ### The formatted text -/

theorem lined_of {checks : Bool} {depth : Nat} {cfg : Config} {root : Node} {out : Str} (hp : Parsed root)
    (hc : conforms root = true) (hx : plain root = true) (ht : All Trim root)
    (h : formatTree checks depth cfg root = .ok out) : lined out 0 root = true := by
  obtain ⟨cm, p, is, log, d, hcm, hn, hi, -, hb, -, -, hout⟩ := formatTree_content h
  obtain ⟨-, hnm, hex, hcf⟩ := conforms_root hc
  have hall := (C14_every_comment_attached_once root hp.closed hnm hex).2 cm hcm
  rw [plain_extras root hx] at hall
  have hnil : cm.all = [] := by simpa using hall
  have hsil := silent_of hnil
  have hf := conf_all root _ hcf hx (ht.imp (fun n hn => .inr (Tidy.ink hn.1)))
  have hrun := root_run (tidyTree_of ht hf (plain_all root hx)) hn
  have hfit := layout_fits hsil hb cfg.maxWidth hrun
  rw [← hout, marks_eq] at hfit
  have hW := root_content (cfg := { cm, checks }) (good_of hp hc hcm) rfl hcf depth
  rw [hn] at hW
  obtain ⟨is', log', hi', h1, -⟩ := (show Sx (items cm p) (cont cm root) from hW).parts
  rw [chsOf_syms hsil p is' log' hi', marks_same none h1] at hfit
  have hrows := rows_of_gaps (r := rowAt out) (i := 0) (p := 0) out hfit (fun j => by simp)
  exact cont_lined (noPost_of hnil) out root (code_all root hx ht) hrows

/-! ### The text of the root -/

mutual
theorem codeNodes_ids : ∀ n : Node, (n.codeNodes.map (·.id)).Sublist n.ids
  | .mk id kind named extra err field sr er sb eb text children => by
    rw [Node.codeNodes, Node.ids, List.map_cons]
    exact (kidsCode_ids children).cons₂ id
theorem kidsCode_ids : ∀ ns : List Node, ((kidsCode ns).map (·.id)).Sublist (idsOf ns)
  | [] => by rw [kidsCode, idsOf]; exact List.Sublist.refl _
  | n :: ns => by
    rw [kidsCode, idsOf, List.map_append]
    refine List.Sublist.append ?_ (kidsCode_ids ns)
    split
    · exact codeNodes_ids n
    · exact List.nil_sublist _
end

theorem parsed_of {root : Node} (hc : root.Closed) (hi : root.ids.Nodup) (hx : plain root = true) : Parsed root :=
  ⟨hc, (codeNodes_ids root).nodup hi, by rw [plain_extras root hx]; exact List.nodup_nil⟩

/-- Another text of the root; all that counts is that nothing else changes. -/
def retext (t : Str) : Node → Node
  | .mk id kind named extra err field sr er sb eb _ children => .mk id kind named extra err field sr er sb eb t children

theorem retext_conforms {root : Node} (t : Str) (h : conforms root = true) (hk : root.children ≠ []) : conforms (retext t root) = true := by
  obtain ⟨h1, h2, h3, h4⟩ := conforms_root h
  cases root with
  | mk id kind named extra err field sr er sb eb text children =>
    simp only at h1 h2 hk
    subst h1 h2
    have hp : prod (NT.core (.cls .root) "parser_output") = .alts false [[.many (k0 .rootMember)]] := rfl
    have hne : children.isEmpty = false := by cases children with | nil => exact absurd rfl hk | cons => rfl
    rw [conf] at h4
    simp only [hp, hne, Bool.and_eq_true, Bool.false_and, Bool.false_or] at h4
    simp only [conforms, retext, Bool.true_and]
    rw [conf]
    simp only [hp, hne, Bool.and_eq_true, Bool.false_and, Bool.false_or]
    exact h4

theorem retext_plain {root : Node} (t : Str) (h : plain root = true) : plain (retext t root) = true := by
  cases root; simpa [retext, plain] using h
theorem retext_closed {root : Node} (t : Str) (h : root.Closed) : (retext t root).Closed := by
  cases root; simpa [retext, Node.Closed] using h
theorem retext_ids (t : Str) (root : Node) : (retext t root).ids = root.ids := by
  cases root; rfl
theorem retext_children (t : Str) (root : Node) : (retext t root).children = root.children := by
  cases root; rfl
theorem retext_lined (t : Str) (s : Str) (i : Nat) (root : Node) : lined s i (retext t root) = lined s i root := by
  cases root; simp [retext, lined]
theorem retext_skel (t : Str) {checks : Bool} {root : Node} (hk : root.kind = "parser_output") (he : root.extra = false)
    (hf : root.field = none) : skeleton checks (retext t root) = skeleton checks root := by
  cases root with
  | mk id kind named extra err field sr er sb eb text children =>
    simp only at hk he hf
    subst hk he hf
    have h1 : ∀ t : Str, (Node.mk id "parser_output" named false err none sr er sb eb t children).shown "" none = false := by
      intro t
      simp [Node.shown, wordField, wordKinds]
    simp only [skeleton, retext, Node.skel, h1, Bool.false_eq_true, if_false]
    rfl

/-- In the formatted text the members are separated as they should. -/
theorem format_lined {checks : Bool} {depth : Nat} {cfg : Config} {root : Node} {out : Str} (hcl : root.Closed)
    (hi : root.ids.Nodup) (hf : root.field = none) (hc : conforms root = true) (hx : plain root = true)
    (ht : neats root.children = true) (h : formatTree checks depth cfg root = .ok out) : lined out 0 root = true := by
  obtain ⟨hk, -, hex, -⟩ := conforms_root hc
  by_cases hne : root.children = []
  · cases root with
    | mk id kind named extra err field sr er sb eb text children =>
      simp only at hne
      subst hne
      rfl
  · rw [← retext_lined ['x']]
    have hx' := retext_plain ['x'] hx
    have hi' : (retext ['x'] root).ids.Nodup := by rw [retext_ids]; exact hi
    refine lined_of (parsed_of (retext_closed _ hcl) hi' hx') (retext_conforms _ hc hne) hx' ?_
      ((C50_only_the_skeleton_matters _ _ checks (retext_skel ['x'] hk hex hf) hi' hi depth cfg out).2 h)
    refine .mk ?_ (fun c hc => neats_all root.children ht c (by rwa [retext_children] at hc))
    cases root with
    | mk id kind named extra err field sr er sb eb text children =>
      simp only at hk
      subst hk
      exact ⟨tidy_of (s := ['x']) (by decide), tidy_of (s := "parser_output".toList) (by decide +kernel)⟩

/-- The tree of the formatted text has the same skeleton. -/
theorem skeleton_again {checks : Bool} {depth : Nat} {cfg : Config} {a b : Node} {out : Str} (hcl : a.Closed)
    (hi : a.ids.Nodup) (hf : a.field = none) (hc : conforms a = true) (hx : plain a = true) (ht : neats a.children = true)
    (h : formatTree checks depth cfg a = .ok out) (hab : alike "" none a b = true) (hpl : placeds out 0 b.children = true) :
    skeleton false a = skeleton false b ∧ late "" b = true := by
  have hl := format_lined hcl hi hf hc hx ht h
  obtain ⟨hk, -, hex, hcf⟩ := conforms_root hc
  cases a with
  | mk id kind named extra err field sr er sb eb text children =>
  cases b with
  | mk id' kind' named' extra' err' field' sr' er' sb' eb' text' children' =>
    have hsh := shown_alike hab
    simp only [alike, Bool.and_eq_true, beq_iff_eq] at hab
    obtain ⟨⟨⟨⟨⟨⟨⟨⟨rfl, rfl⟩, rfl⟩, rfl⟩, rfl⟩, h6⟩, h7⟩, h8⟩, h9⟩ := hab
    simp only at hk hex hf hpl ht
    subst hk hex hf
    have htr := neats_all children ht
    rw [plain, Bool.and_eq_true] at hx
    have hcd := codes_all children hx.2 htr
    have hconf : ∀ c ∈ children, All Frame c := by
      by_cases hne : children = []
      · subst hne; intro c hc; cases hc
      · have h0 : All Trim (retext ['x'] (.mk id "parser_output" named false err none sr er sb eb text children)) :=
          .mk ⟨tidy_of (s := ['x']) (by decide), tidy_of (s := "parser_output".toList) (by decide +kernel)⟩ htr
        have := conf_all _ _ (conforms_root (retext_conforms ['x'] hc hne)).2.2.2
          (by rw [retext, plain, Bool.and_eq_true]; exact hx) (h0.imp (fun n hn => .inr (Tidy.ink hn.1)))
        exact fun c hc => this.kid hc
    have hti : Tight children := by
      by_cases hne : children = []
      · subst hne; trivial
      · have h0 : All Trim (retext ['x'] (.mk id "parser_output" named false err none sr er sb eb text children)) :=
          .mk ⟨tidy_of (s := ['x']) (by decide), tidy_of (s := "parser_output".toList) (by decide +kernel)⟩ htr
        have := conf_all _ _ (conforms_root (retext_conforms ['x'] hc hne)).2.2.2
          (by rw [retext, plain, Bool.and_eq_true]; exact hx) (h0.imp (fun n hn => .inr (Tidy.ink hn.1)))
        exact tight_of (this.here.body rfl)
    rw [lined] at hl
    have hkids := skels_eq out children children' "parser_output" none true true [] [] 0 h9 hpl hl hconf hcd
      (fun h => absurd h (by decide)) (fun _ => rfl) (fun _ => hti)
    have hs : (Node.mk id "parser_output" named false err none sr er sb eb text children).shown "" none = false := by
      simp [Node.shown, wordField, wordKinds]
    refine ⟨?_, by rw [late]; exact hkids.2⟩
    rw [skeleton, skeleton, Node.skel, Node.skel]
    simp only [← hsh, hs, h8, Bool.false_eq_true, if_false, Skel.mk.injEq, true_and]
    exact ⟨by simp [around], hkids.1⟩

end Afmt.Lines
