import Verif.Ends.Mend
import Verif.Ends.Guard
import Verif.Notes.Done

/-!
# The ends of lines in the formatted text of programs with comments between members
-/

namespace Afmt

mutual
/-- No comment after an explicit constructor call that is alone in its body. -/
def calls : Node → Bool
  | .mk _ _ _ _ _ _ _ _ _ _ _ children =>
    ((children.filter (fun c => c.named && !c.extra)).map (·.kind) != ["explicit_constructor_invocation"] ||
      (children.dropWhile (fun c => c.extra || !c.named)).all (fun c => !c.extra)) && callss children
/-- Siblings. -/
def callss : List Node → Bool
  | [] => true
  | c :: cs => calls c && callss cs
end

namespace Ends
open Gram hiding inner full
open Notes
open Afmt.Lines (All All2 child_of P P_get lang_atoms)
open Afmt.Trail (inner ends front lead pair Gate Tight admitted tight_iff tidyEnds_eq Tr conf_tr updates_all find_field)

/-! ### Lines of comments -/

theorem trimmed_ends {s : Str} (h : ∀ c ∈ s.getLast?, isWs c = false) : ends s = false := by
  unfold ends
  cases hs : s.getLast? with
  | none => rfl
  | some c =>
    have := h c hs
    show isSpace c = false
    cases hc : isSpace c with
    | false => rfl
    | true =>
      have : isWs c = true := by
        unfold isSpace at hc
        simp only [Bool.or_eq_true, beq_iff_eq] at hc
        rcases hc with (rfl | rfl) | rfl <;> decide
      rw [h c hs] at this
      cases this

theorem docLine_ends {x : Str} (h : DocLine x) : ends x = false := by
  rcases h with rfl | ⟨c, rfl, hc, ht⟩
  · decide
  · rw [Trail.ends_append hc]
    exact trimmed_ends ht.2

theorem javadoc_ends (ls : List Str) : ∀ x ∈ javadocTail ls, ends x = false := by
  intro x hx
  cases ls with
  | nil => cases hx
  | cons l ls =>
    obtain ⟨init, e, hi⟩ := javadocTail_form (l :: ls) (by simp)
    rw [e, List.mem_append, List.mem_singleton] at hx
    rcases hx with hx | rfl
    · exact docLine_ends (hi x hx)
    · decide

theorem block_ends (v : Str) : ∀ x ∈ blockLines v, ends x = false := by
  intro x hx
  unfold blockLines at hx
  simp only at hx
  split at hx
  · split at hx
    · cases hx
    · rcases List.mem_cons.1 hx with rfl | hx
      · exact trimmed_ends (trimmed_trim _).2
      · exact javadoc_ends _ x hx
  · obtain ⟨l, _, rfl⟩ := List.mem_map.1 hx
    exact trimmed_ends (trimmed_trim _).2

theorem block_first {v l : Str} {ls : List Str} (h : blockLines v = l :: ls) : lead l = false := by
  have key : ∀ s : Str, lead (trim s) = false := by
    intro s
    unfold lead
    have := (trimmed_trim s).1
    cases hs : (trim s).head? with
    | none => rfl
    | some c =>
      have h1 := this c hs
      rw [beq_eq_false_iff_ne]
      rintro e
      injection e with e
      subst e
      exact absurd h1 (by decide)
  unfold blockLines at h
  simp only at h
  split at h
  · split at h
    · cases h
    · cases h; exact key _
  · cases hs : splitNl v with
    | nil => rw [hs] at h; cases h
    | cons x xs => rw [hs] at h; cases h; exact key _

mutual
theorem extras_of {R : Node → Prop} : ∀ n : Node, All (fun x => ∀ c ∈ x.children, c.extra = true → R c) n → ∀ o ∈ n.extras, R o.node
  | .mk id kind named extra err field sr er sb eb text children, h, o, ho => by
    rw [Node.extras] at ho
    exact kidsExtras_of id [] children h.here (fun c hc => h.kid hc) o ho
theorem kidsExtras_of {R : Node → Prop} (pid : Nat) : ∀ (lefts ns : List Node), (∀ c ∈ ns, c.extra = true → R c) →
    (∀ c ∈ ns, All (fun x => ∀ c ∈ x.children, c.extra = true → R c) c) → ∀ o ∈ kidsExtras pid lefts ns, R o.node
  | _, [], _, _, o, ho => by rw [kidsExtras] at ho; cases ho
  | lefts, c :: r, h1, h2, o, ho => by
    rw [kidsExtras, List.mem_append, List.mem_append] at ho
    rcases ho with (ho | ho) | ho
    · split at ho
      · rename_i he
        rw [List.mem_singleton] at ho
        subst ho
        exact h1 c List.mem_cons_self he
      · cases ho
    · exact extras_of c (h2 c List.mem_cons_self) o ho
    · exact kidsExtras_of pid (c :: lefts) r (fun d hd => h1 d (List.mem_cons_of_mem _ hd))
        (fun d hd => h2 d (List.mem_cons_of_mem _ hd)) o ho
end

/-! ### Fields of comments -/

mutual
theorem plain_kids : ∀ n : Node, plain n = true → All (fun x => ∀ c ∈ x.children, c.extra = true → c.field = none) n
  | .mk id kind named extra err field sr er sb eb text children, h => by
    rw [plain, Bool.and_eq_true] at h
    have hk := plains_kids children h.2
    exact .mk (fun c hc he => by rw [(hk c hc).1] at he; cases he) (fun c hc => (hk c hc).2)
theorem plains_kids : ∀ ns : List Node, plains ns = true → ∀ c ∈ ns, c.extra = false ∧
    All (fun x => ∀ c ∈ x.children, c.extra = true → c.field = none) c
  | [], _, c, hc => by cases hc
  | n :: ns, h, c, hc => by
    rw [plains, Bool.and_eq_true] at h
    rcases List.mem_cons.1 hc with e | hc
    · rw [e]
      refine ⟨?_, plain_kids n h.1⟩
      have := h.1
      cases n
      rw [plain, Bool.and_eq_true, Bool.not_eq_true'] at this
      exact this.1
    · exact plains_kids ns h.2 c hc
end

/-- Comments hang under no field name. -/
theorem conf_fields : ∀ (n : Node) (nt : NT), conf n nt = true → All (fun x => ∀ c ∈ x.children, c.extra = true → c.field = none) n
  | .mk id kind named extra err field sr er sb eb text children, nt, h => by
    have sp : spelled (.mk id kind named extra err field sr er sb eb text children) = true →
        All (fun x => ∀ c ∈ x.children, c.extra = true → c.field = none) (.mk id kind named extra err field sr er sb eb text children) := by
      intro hs
      unfold spelled at hs
      rw [Bool.and_eq_true, Bool.and_eq_true] at hs
      exact plain_kids _ hs.1.1
    cases hp : prod (nt.core kind) with
    | value => exact sp (conf_value h hp).1
    | words tbl => exact sp (conf_words h hp).1
    | alts val ps =>
      rcases conf_alts h hp with h1 | h1
      · exact sp h1.2.1
      · obtain ⟨hs, _, h2, h3⟩ := h1
        have hL := confs_sound _ _ h3
        refine .mk (fun c hc he => (sane_extras hs c hc he).1) ?_
        intro c hc
        cases he : c.extra with
        | true =>
          have hl := sane_leaf hs c hc he
          exact .mk (fun x hx => by rw [hl] at hx; cases hx) (fun x hx => by rw [hl] at hx; cases hx)
        | false =>
          obtain ⟨a, ha, hsat⟩ := lang_atoms hL c (List.mem_filter.2 ⟨hc, by simp [he]⟩)
          cases hnt : a.nt with
          | some nt' => exact conf_fields c nt' (hsat.2 nt' hnt)
          | none =>
            have h7 := hsat.1
            simp only [Atom.fits, hnt, Option.isSome_none, Bool.false_or, Bool.and_eq_true, tokenText, List.isEmpty_iff] at h7
            exact .mk (fun x hx => by rw [h7.2.1] at hx; cases hx) (fun x hx => by rw [h7.2.1] at hx; cases hx)

variable [Gate]

/-- What is known of the comments of the tree. -/
structure Clean (n : Node) : Prop where
  note : Note n
  lines : ∀ l ∈ drawn n, l ≠ [] ∧ Gate.ok l = true

theorem fine_of {o : Occ} (h : Clean o.node) : Fine o.comment := by
  have hn := h.note
  unfold Note isNote at hn
  simp only [Bool.and_eq_true, Bool.or_eq_true, beq_iff_eq] at hn
  have he : linesOf o.comment = drawn o.node := by
    unfold linesOf drawn Occ.comment
    simp only
    by_cases hk : (o.node.kind == "line_comment") = true
    · rw [if_pos hk, if_pos hk]
    · rw [if_neg hk, if_neg hk]
  have ht : ∀ c ∈ (trimEnd o.node.text).getLast?, isWs c = false := by
    obtain ⟨w, h1, h2, h3⟩ := trimEnd_split o.node.text
    exact h3
  rcases hn.2 with hl | hb
  · have hd : drawn o.node = [trimEnd o.node.text] := by unfold drawn; rw [hl.1.1.1]; rfl
    have hm := h.lines (trimEnd o.node.text) (by rw [hd]; exact List.mem_singleton_self _)
    refine ⟨by rw [he, hd]; simp, ?_, ?_⟩
    · intro l hlm
      rw [he, hd, List.mem_singleton] at hlm
      subst hlm
      refine ⟨hm.1, fun hc => ?_, trimmed_ends ht, hm.2⟩
      have h1 := (trimEnd_sublist _).subset hc
      have := hl.1.2
      simp only [Bool.not_eq_true', List.contains_iff_mem, Bool.eq_false_iff, ne_eq] at this
      exact this h1
    · intro l ls e _
      rw [he, hd] at e
      cases e
      have hp := hl.1.1.2
      unfold lead
      rw [List.isPrefixOf_iff_prefix] at hp
      obtain ⟨r, hr⟩ := hp
      have hne := hm.1
      obtain ⟨w, h1, h2, h3⟩ := trimEnd_split o.node.text
      cases hs : trimEnd o.node.text with
      | nil => exact absurd hs hne
      | cons c s =>
        rw [hs, ← hr] at h1
        injection h1 with h1
        rw [← h1]
        rfl
  · have hd : drawn o.node = blockLines (trimEnd o.node.text) := by unfold drawn; rw [hb.1.1.1.1]; rfl
    refine ⟨by rw [he, hd]; exact blockLines_ne_nil _, ?_, ?_⟩
    · intro l hlm
      rw [he] at hlm
      have hm := h.lines l hlm
      rw [hd] at hlm
      exact ⟨hm.1, nl_blockLines _ l hlm, block_ends _ l hlm, hm.2⟩
    · intro l ls e _
      rw [he, hd] at e
      exact block_first e

/-- The source of the comments. -/
@[instance_reducible] noncomputable def fairOf {cm : CMap} {root : Node} (F : Found cm root)
    (h : ∀ c ∈ cm.all, Fine c) : Fair where
  toSrc := srcOf cm F.nodup F.ok
  fine := fun i c hc => h c (bucket_sub cm i c (by
    unfold Bucket.all
    rw [List.mem_append] at hc
    rcases hc with hc | hc
    · simp only [List.mem_append]; exact .inl (.inl hc)
    · simp only [List.mem_append]; exact .inl (.inr hc)))

/-! ### Trees -/

/-- What is needed of the nodes. -/
structure Fact (n : Node) : Prop extends Tr n where
  both : Both n
  kind : Tight n.kind.toList
  text : n.extra = false → Tight n.text
  lines : n.extra = true → ∀ l ∈ drawn n, l ≠ [] ∧ Gate.ok l = true
  field : ∀ c ∈ n.children, c.extra = true → c.field = none
  upd : n.kind = "for_statement" → ∃ c ∈ n.children, c.field = some "update"

theorem Fact.member {n : Node} (h : Fact n) (hk : Lines.fullKinds.contains n.kind = true) :
    ∃ c ∈ n.children, c.named = true ∧ c.extra = false := by
  obtain ⟨f, hs⟩ := h.both
  obtain ⟨c, hc, hn⟩ := f.full hk
  have hb : bodyKinds.contains n.kind = false := by
    unfold Lines.fullKinds at hk
    simp only [List.contains_iff_mem, List.mem_cons, List.not_mem_nil, or_false] at hk
    rcases hk with h | h | h | h | h <;> rw [h] <;> decide
  exact ⟨c, hc, hn, hs.calm hb c hc⟩

theorem fit_of {root : Node} (h : All Fact root) (hr : root.extra = false) : Fit root := by
  have calm : ∀ {n : Node}, Fact n → ∀ {k : String}, n.kind = k → bodyKinds.contains k = false → ∀ c ∈ n.children, c.extra = false := by
    intro n hn k hk hb c hc
    exact hn.both.2.calm (by rw [hk]; exact hb) c hc
  have vec : ∀ {l x : Loc}, x ∈ l.children → x.node.named = true → x.node.extra = false → x ∈ l.childrenVec := by
    intro l x hx hn he
    unfold Loc.childrenVec Loc.namedChildren
    rw [List.mem_filter, List.mem_filter]
    exact ⟨⟨hx, hn⟩, by simp [Loc.extra, he]⟩
  refine ⟨fun l hl he => (h.at hl).here.text he, fun l hl => (h.at hl).here.kind, ?_, ?_, ?_, ?_, fun l hl => (h.at hl).here.look, ?_⟩
  · intro l hl hk
    obtain ⟨c, hc, hn, he⟩ := (h.at hl).here.member hk
    obtain ⟨x, hxl, rfl⟩ := child_of hc
    exact List.ne_nil_of_mem (vec hxl hn he)
  · exact fun l hl hk => find_field ((h.at hl).here.upd hk)
  · intro l hl hk
    obtain ⟨c, hc, hn, hkd⟩ := (h.at hl).here.grp hk
    have he := calm (h.at hl).here hk (by decide) c hc
    obtain ⟨x, hxl, rfl⟩ := child_of hc
    refine List.ne_nil_of_mem (List.mem_filter.2 ⟨vec hxl hn he, ?_⟩)
    simpa [Loc.kind] using hkd
  · intro l hl hk hv
    obtain ⟨c, hc, hn, hkd⟩ := (h.at hl).here.asg hk (by
      cases hx : l.tryCByN "value" with
      | none => exact absurd hx hv
      | some x =>
        exact ⟨x.node, Lines.All.at.mem_children_node (List.mem_of_find?_eq_some hx), by simpa using List.find?_some hx⟩)
    obtain ⟨x, hxl, rfl⟩ := child_of hc
    unfold Loc.tryCByK Loc.namedChildren
    intro h0
    rw [List.find?_eq_none] at h0
    exact h0 x (List.mem_filter.2 ⟨hxl, hn⟩) (by simp [Loc.kind, hkd])
  · intro l hl he
    cases hl with
    | root => exact absurd (he.symm.trans hr) (by decide)
    | child hp hc =>
      have hf := (h.at hp).here
      have hm := Lines.All.at.mem_children_node hc
      have hn := sett_kids hf.both.2 _ hm he
      unfold Note isNote at hn
      simp only [Bool.and_eq_true, Bool.or_eq_true, beq_iff_eq, List.isEmpty_iff] at hn
      refine ⟨?_, hf.field _ hm he, hn.2.imp (fun h => h.1.1.1) (fun h => h.1.1.1.1)⟩
      have h0 := hn.1.2
      cases hl : l.children with
      | nil => rfl
      | cons x xs =>
        have : x.node ∈ l.node.children := Lines.All.at.mem_children_node (by rw [hl]; exact List.mem_cons_self)
        rw [h0] at this
        cases this

mutual
theorem prim_all : ∀ (pk : String) (pf : Option String) (n : Node), prim pk pf n = true →
    All (fun x => Tight x.kind.toList ∧ (x.extra = true → ink x.text ≠ [] ∧ ∀ l ∈ drawn x, l ≠ [] ∧ Gate.ok l = true)) n
  | pk, pf, .mk id kind named extra err field sr er sb eb text children, h => by
    have hk := prims_all kind field children (prim_kids h)
    rw [prim, primBy, Bool.and_eq_true, Bool.and_eq_true] at h
    refine .mk ⟨(tight_iff _).1 h.1.1, fun he => ?_⟩ hk
    have h2 := h.1.2
    simp only at he
    rw [if_pos he, Bool.and_eq_true, List.all_eq_true] at h2
    refine ⟨by simpa using h2.1, fun l hl => ?_⟩
    have := h2.2 l hl
    rw [Bool.and_eq_true] at this
    exact ⟨by simpa using this.1, this.2⟩
theorem prims_all : ∀ (pk : String) (pf : Option String) (ns : List Node), prims pk pf ns = true → ∀ c ∈ ns,
    All (fun x => Tight x.kind.toList ∧ (x.extra = true → ink x.text ≠ [] ∧ ∀ l ∈ drawn x, l ≠ [] ∧ Gate.ok l = true)) c
  | _, _, [], _, c, hc => by cases hc
  | pk, pf, n :: ns, h, c, hc => by
    rw [prims, primsBy, Bool.and_eq_true] at h
    rcases List.mem_cons.1 hc with e | hc
    · rw [e]; exact prim_all pk pf n h.1
    · exact prims_all pk pf ns h.2 c hc
end

theorem mend_drawn {n : Node} (h : n.extra = true) : drawn (mend n) = drawn n := by
  unfold drawn
  rw [mend_kind, mend_note h]

theorem mend_facts {root : Node} {pk : String} {pf : Option String} {nt : NT} (hp : prim pk pf root = true) (hc : conf root nt = true)
    (hs : settled root = true) (hu : All (fun x => x.kind = "for_statement" → ∃ c ∈ x.children, c.field = some "update") root) :
    All Fact (mend root) := by
  have h1 := mend_conf pk pf root nt hp hc
  have h2 : All (fun x => Tight x.kind.toList ∧ (x.extra = false → Tight x.text) ∧
      (x.extra = true → ink x.text ≠ [] ∧ ∀ l ∈ drawn x, l ≠ [] ∧ Gate.ok l = true)) (mend root) := by
    refine All.mend (fun n hn => ?_) (prim_all pk pf root hp)
    refine ⟨by rw [mend_kind]; exact hn.1, fun he => ?_, fun he => ?_⟩
    · rw [mend_extra] at he; rw [mend_text he]; exact mendText_tight _
    · rw [mend_extra] at he; rw [mend_note he, mend_drawn he]; exact hn.2 he
  have h3 : All Both (mend root) := by
    refine settled_all _ _ h1 (by rw [mend_settled]; exact hs) (h2.imp (fun n hn => ?_))
    cases he : n.extra with
    | true => exact .inr (hn.2.2 he).1
    | false =>
      have ht := hn.2.1 he
      unfold Tight at ht
      have := ink_tidy ht.1 ht.2.1 ht.2.2.1
      refine .inr (fun h0 => ?_)
      rw [h0] at this
      cases this
  have h4 : All (fun x => x.kind = "for_statement" → ∃ c ∈ x.children, c.field = some "update") (mend root) := by
    refine All.mend (fun n hn hk => ?_) hu
    rw [mend_kind] at hk
    obtain ⟨c, hc, hf⟩ := hn hk
    exact ⟨mend c, by rw [mend_children]; exact List.mem_map_of_mem hc, by rw [mend_field, hf]⟩
  have := All.both (conf_tr _ _ h1) (All.both h2 (All.both h3 (All.both h4 (conf_fields _ _ h1))))
  refine this.imp (fun n hn => ?_)
  obtain ⟨g1, g2, g3, g4, g5⟩ := hn
  exact { g1 with both := g3, kind := g2.1, text := g2.2.1, lines := fun he => (g2.2.2 he).2, field := g5, upd := g4 }

/-! ### Calls of constructors -/

omit [Gate] in
theorem callss_mem : ∀ {ns : List Node}, callss ns = true → ∀ c ∈ ns, calls c = true
  | [], _, c, hc => by cases hc
  | n :: ns, h, c, hc => by
    rw [callss, Bool.and_eq_true] at h
    rcases List.mem_cons.1 hc with e | hc
    · rw [e]; exact h.1
    · exact callss_mem h.2 c hc

/-- The condition on the calls at one node. -/
def Called (n : Node) : Prop := (n.children.filter (fun c => c.named && !c.extra)).map (·.kind) = ["explicit_constructor_invocation"] →
  ∀ c ∈ n.children.dropWhile (fun c => c.extra || !c.named), c.extra = false

omit [Gate] in
theorem calls_all : ∀ n : Node, calls n = true → All Called n
  | .mk id kind named extra err field sr er sb eb text children, h => by
    rw [calls, Bool.and_eq_true] at h
    refine .mk (fun hk c hc => ?_) (fun c hc => calls_all c (callss_mem h.2 c hc))
    have h1 := h.1
    simp only at hk hc
    rw [hk, Bool.or_eq_true] at h1
    rcases h1 with h1 | h1
    · exact absurd h1 (by decide)
    · have := List.all_eq_true.1 h1 c hc
      simpa using this

theorem Called.mend {n : Node} (h : Called n) : Called (Ends.mend n) := by
  unfold Called at h ⊢
  rw [mend_children, List.filter_map, List.map_map, List.dropWhile_map]
  simp only [Function.comp_def, mend_named, mend_extra, mend_kind]
  intro hk c hc
  obtain ⟨d, hd, rfl⟩ := List.mem_map.1 hc
  rw [mend_extra]
  exact h hk d hd

omit [Gate] in
theorem flat_members : ∀ {bs : List Blk} {p : Option Node}, Blks p bs → (flat bs).filter (fun c => c.named && !c.extra) = bs.map (·.m)
  | [], _, _ => rfl
  | b :: bs, _, .cons h1 h2 h3 _ _ h6 => by
    have nil : ∀ {cs : List Node}, (∀ c ∈ cs, Note c) → cs.filter (fun c => c.named && !c.extra) = [] := by
      intro cs h
      rw [List.filter_eq_nil_iff]
      intro c hc
      rw [(h c hc).extra]
      simp
    rw [flat_cons, List.filter_append, nil h1, List.nil_append, List.filter_cons_of_pos (by rw [h2.1, h2.2.1]; rfl), List.filter_append,
      nil h3, List.nil_append, flat_members h6, List.map_cons]

omit [Gate] in
theorem vec_nodes (l : Loc) : l.childrenVec.map (·.node) = l.node.children.filter (fun c => c.named && !c.extra) := by
  have h := childrenGo_map l [] l.node.children
  unfold Loc.childrenVec Loc.namedChildren
  rw [List.filter_filter]
  have e : l.children.map (·.node) = l.node.children := h
  rw [← e, List.filter_map]
  congr 2
  funext x
  show (!x.node.extra && x.node.named) = (x.node.named && !x.node.extra)
  rw [Bool.and_comm]

omit [Gate] in
theorem drop_block {xs pre : List Node} {m : Node} {r : List Node} (hx : ∀ t ∈ xs, Tok t) (hp : ∀ c ∈ pre, Note c) (hm : Mem m) :
    (xs ++ (pre ++ m :: r)).dropWhile (fun c => c.extra || !c.named) = m :: r := by
  induction xs with
  | nil =>
    rw [List.nil_append]
    induction pre with
    | nil => rw [List.nil_append, List.dropWhile_cons_of_neg (by rw [hm.1, hm.2.1]; simp)]
    | cons c cs ih =>
      rw [List.cons_append, List.dropWhile_cons_of_pos (by rw [(hp c List.mem_cons_self).extra]; rfl)]
      exact ih (fun d hd => hp d (List.mem_cons_of_mem _ hd))
  | cons t ts ih =>
    rw [List.cons_append, List.dropWhile_cons_of_pos (by rw [(hx t List.mem_cons_self).1]; simp)]
    exact ih (fun d hd => hx d (List.mem_cons_of_mem _ hd))

theorem lone_of {cm : CMap} {root : Node} (F : Found cm root) (h : ∀ c ∈ cm.all, Fine c) (hc : All Called root) : @Lone _ (fairOf F h) root := by
  intro n hn c hv hk
  have hpost : (bucketOf cm c.id).post = [] := by
    have hkb := (F.kids.at hn).here
    have hcm : c ∈ n.children := by
      have : c ∈ n.childrenVec := by rw [hv]; exact List.mem_singleton_self _
      exact (List.mem_filter.1 (List.mem_filter.1 this).1).1
    have hcn : c.node ∈ n.node.children := Lines.All.at.mem_children_node hcm
    have hvn := vec_nodes n
    rw [hv, List.map_singleton] at hvn
    cases hb : bodyKinds.contains n.node.kind with
    | false =>
      have := (hkb.calm hb c.node hcn).2
      show (bucketOf cm c.node.id).post = []
      rw [this]
      rfl
    | true =>
      obtain ⟨xs, bs, ys, e, hx, hy, hbs, ha, ho, hq⟩ := hkb.body hb
      have nil : ∀ {cs : List Node}, (∀ c ∈ cs, Tok c) → cs.filter (fun c => c.named && !c.extra) = [] := by
        intro cs h
        rw [List.filter_eq_nil_iff]
        intro c hc
        rw [(h c hc).1]
        simp
      have hm : [c.node] = bs.map (·.m) := by
        rw [hvn, e, List.filter_append, List.filter_append, nil hx, nil hy, flat_members hbs]
        simp
      match bs, hbs, ho, hm, e with
      | [], _, _, hm, _ => exact absurd hm (by simp)
      | _ :: _ :: _, _, _, hm, _ => exact absurd hm (by simp)
      | [b], .cons h1 h2 h3 h4 h5 h6, ho, hm, e =>
        have hcb : c.node = b.m := by simpa using hm
        have hcl := (hc.at hn).here
        unfold Called at hcl
        rw [← hvn] at hcl
        have hall := hcl (by simpa [Loc.kind] using hk)
        rw [e, flat_cons, flat_nil, List.append_nil, List.append_assoc, List.append_assoc, List.cons_append, drop_block hx h1 h2] at hall
        have hp0 : b.post = [] := by
          cases hp : b.post with
          | nil => rfl
          | cons d ds =>
            have h7 := h3 d (by rw [hp]; exact List.mem_cons_self)
            have h8 := hall d (by rw [hp]; simp)
            rw [h7.extra] at h8
            cases h8
        show (bucketOf cm c.node.id).post = []
        rw [hcb, ho.1, hp0]
        rfl
  show (if (bucketOf cm c.id).post = [] then St.N else St.Q) = St.N
  rw [if_pos hpost]

/-! ### The formatted text -/

theorem clean_kids {root : Node} (h : All Fact root) : All (fun x => ∀ c ∈ x.children, c.extra = true → Clean c) root := by
  induction h with
  | mk h hk ih => exact .mk (fun c hc he => ⟨sett_kids h.both.2 c hc he, (hk c hc).here.lines he⟩) ih

theorem mend_run {checks : Bool} {depth : Nat} {cfg : Config} {root : Node} {out : Str} (hcl : root.Closed) (hi : root.ids.Nodup)
    (hc : conforms root = true) (hall : All Fact root) (hca : All Called root)
    (h : formatTree checks depth cfg root = .ok out) :
    ∃ (ro : Comment → Role) (cm : CMap) (p : Prog) (d : Doc) (l : List Comment), commentMap root = .ok cm ∧
      Prog.new { cm, checks } depth .root (Loc.ofRoot root) = .ok p ∧ Roles ro cm ∧ Prog.build cfg.indentSize cm p = .ok (d, l) ∧
      run .N (syms ro cm p) ≠ .bad ∧ out = layout cfg.maxWidth d := by
  obtain ⟨cm, p, is, log, d, hcm, hn, -, hb, -, hout, -⟩ := run_conts (parsed_ids hcl hi) hc h
  obtain ⟨hkd, hnm, hex, hcf⟩ := conforms_root hc
  have hsett := hall.imp (fun _ h => h.both.2)
  have F : Found cm root := found_of hsett hex (by unfold isVisited; rw [hnm, hex]; rfl) hcl hi hcm
  have hfine : ∀ c ∈ cm.all, Fine c := by
    intro c hc
    have := ((C14_every_comment_attached_once root hcl hnm hex).2 cm hcm).mem_iff.1 hc
    obtain ⟨o, ho, rfl⟩ := List.mem_map.1 this
    exact fine_of (extras_of root (clean_kids hall) o ho)
  have H := home_of F
  have L := lone_of F hfine hca
  have T := fit_of hall hex
  letI K := fairOf F hfine
  refine ⟨roleOf cm, cm, p, d, log, hcm, hn, roles_of F.nodup F.ok, hb, ?_, hout⟩
  have hB : Body (Loc.ofRoot root) := by
    intro hk
    have : root.kind = "local_variable_declaration" := hk
    rw [hkd] at this
    exact absurd this (by decide)
  have hcall := call_t (cm := cm) (cfg := { cm, checks := false }) (good_of (parsed_ids hcl hi) hc hcm) rfl rfl T H L (max depth (8 * Gram.depth root + 3))
    (Call.node (c := .root) (l := .ofRoot root) .root rfl hcf hB) (by
      have h1 : rank Cls.root ≤ 2 := by decide
      have h2 : (Loc.ofRoot root).node = root := rfl
      rw [h2]
      omega)
  have hn' := new_below (cfg := { cm, checks }) (cfg' := { cm, checks := false }) ⟨rfl, fun h => nomatch h⟩
    (Nat.le_max_left depth (8 * Gram.depth root + 3)) .root (Loc.ofRoot root) p hn
  have hf := P_get hcall hn'
  replace hf : Ends.T .N [p] .B := hf
  unfold Ends.T at hf
  rw [symss, symss, List.append_nil] at hf
  intro hbad
  have hf : run .N (syms (roleOf cm) cm p) ≤ .B := hf
  rw [hbad] at hf
  exact absurd hf (by decide)

open Lines (retext retext_conforms retext_closed retext_ids retext_children retext_skel) in
/-- A tree with the same formatted text that the machine accepts. -/
theorem mend_tree {root : Node} (checks : Bool) (hcl : root.Closed) (hi : root.ids.Nodup)
    (hf : root.field = none) (hc : conforms root = true) (hs : settled root = true) (hne : root.children ≠ [])
    (ht : prims "parser_output" none root.children = true) (hu : updates root = true) (hca : calls root = true) :
    ∃ root2 : Node, root2.Closed ∧ root2.ids.Nodup ∧ conforms root2 = true ∧ All Fact root2 ∧ All Called root2 ∧
      ∀ depth cfg out, formatTree checks depth cfg root = .ok out ↔ formatTree checks depth cfg root2 = .ok out := by
  obtain ⟨hk, hnm, hex, hcf⟩ := conforms_root hc
  have hc1 := retext_conforms ['x'] hc hne
  obtain ⟨hk1, hnm1, hex1, hcf1⟩ := conforms_root hc1
  have hi1 : (retext ['x'] root).ids.Nodup := by rw [retext_ids]; exact hi
  have hs1 : settled (retext ['x'] root) = true := by cases root; simpa [retext, settled] using hs
  have hca1 : calls (retext ['x'] root) = true := by cases root; simpa [retext, calls] using hca
  have hpr : prim "" none (retext ['x'] root) = true := by
    cases root with
    | mk id kind named extra err field sr er sb eb text children =>
      simp only at hk hf hex ht
      subst hk hf hex
      rw [retext, prim, primBy, Bool.and_eq_true, Bool.and_eq_true]
      refine ⟨⟨(tight_iff _).2 (Trail.Tight_const (by decide +kernel)), ?_⟩, ht⟩
      rw [if_neg (by decide), (tight_iff _).2 (Trail.Tight_const (s := ['x']) (by decide)), Bool.or_true]
  have hup : All (fun x => x.kind = "for_statement" → ∃ c ∈ x.children, c.field = some "update") (retext ['x'] root) := by
    refine .mk (fun h => ?_) (fun c hc => (updates_all root hu).kid (by rwa [retext_children] at hc))
    rw [hk1] at h; exact absurd h (by decide)
  have hall := mend_facts hpr hcf1 hs1 hup
  have hsk : skeleton checks (mend (retext ['x'] root)) = skeleton checks (retext ['x'] root) := by
    have := mend_skel checks "" none false [] [] _ hpr
    rwa [List.map_nil] at this
  have hc2 : conforms (mend (retext ['x'] root)) = true := by
    rw [conforms, mend_named, hnm1, Bool.true_and]
    exact mend_conf _ _ _ _ hpr hcf1
  have hi2 : (mend (retext ['x'] root)).ids.Nodup := by rw [mend_ids]; exact hi1
  refine ⟨mend (retext ['x'] root), mend_closed _ (retext_closed _ hcl), hi2, hc2, hall,
    All.mend (fun n hn => hn.mend) (calls_all _ hca1), fun depth cfg out => ?_⟩
  rw [← C50_only_the_skeleton_matters _ _ checks (retext_skel ['x'] hk hex hf) hi1 hi depth cfg out,
    ← C50_only_the_skeleton_matters _ _ checks hsk hi2 hi1 depth cfg out]

/-- The formatted text is the layout of a program with comments that the machine accepts. -/
theorem format_run {checks : Bool} {depth : Nat} {cfg : Config} {root : Node} {out : Str} (hcl : root.Closed) (hi : root.ids.Nodup)
    (hf : root.field = none) (hc : conforms root = true) (hs : settled root = true) (hne : root.children ≠ [])
    (ht : prims "parser_output" none root.children = true) (hu : updates root = true) (hca : calls root = true)
    (h : formatTree checks depth cfg root = .ok out) :
    ∃ (ro : Comment → Role) (cm : CMap) (k : Nat) (p : Prog) (d : Doc) (l : List Comment), Roles ro cm ∧ Prog.build k cm p = .ok (d, l) ∧
      run .N (syms ro cm p) ≠ .bad ∧ out = layout cfg.maxWidth d := by
  obtain ⟨root2, hcl2, hi2, hc2, hall, hcal, key⟩ := mend_tree checks hcl hi hf hc hs hne ht hu hca
  obtain ⟨ro, cm, p, d, l, -, -, h1⟩ := mend_run hcl2 hi2 hc2 hall hcal ((key depth cfg out).1 h)
  exact ⟨ro, cm, _, p, d, l, h1⟩

omit [Gate] in
/-- Without children there are no comments. -/
theorem bare_plain {root : Node} (he : root.extra = false) (hne : root.children = []) : plain root = true := by
  cases root
  simp only at he hne
  subst he hne
  rfl

/-- No line break of the formatted text comes after white space. -/
theorem format_inner {checks : Bool} {depth : Nat} {cfg : Config} {root : Node} {out : Str} (hcl : root.Closed) (hi : root.ids.Nodup)
    (hf : root.field = none) (hc : conforms root = true) (hs : settled root = true) (hne : root.children ≠ [])
    (ht : prims "parser_output" none root.children = true) (hu : updates root = true) (hca : calls root = true)
    (h : formatTree checks depth cfg root = .ok out) : inner out = true := by
  obtain ⟨ro, cm, k, p, d, l, hro, hb, hr, e⟩ := format_run hcl hi hf hc hs hne ht hu hca h
  rw [e]
  exact layout_inner hro hb _ hr

end Ends
end Afmt
