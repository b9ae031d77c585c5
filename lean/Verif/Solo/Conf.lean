import Verif.Gram.Final
import Verif.Solo.Join
import Verif.Solo.Lead

/-!
# A member of a file without comments is, alone, again a file that follows the grammar
-/

namespace Afmt
namespace Solo
open Gram

variable {root m : Node}

theorem members_quiet (hx : root.extras = []) : ∀ c ∈ root.children, c.extra = false ∧ c.extras = [] := by
  have : ∀ (ns : List Node) (pid : Nat) (lefts : List Node), kidsExtras pid lefts ns = [] → ∀ c ∈ ns, c.extra = false ∧ c.extras = [] := by
    intro ns
    induction ns with
    | nil => intro _ _ _ c h; simp at h
    | cons d r ih =>
      intro pid lefts h c hcm
      obtain ⟨h1, h2, h3⟩ := kids_nil h
      rcases List.mem_cons.1 hcm with rfl | hcm
      · exact ⟨h1, h2⟩
      · exact ih _ _ h3 c hcm
  rw [extras_eq] at hx
  exact this _ _ _ hx

theorem members_sat (hc : conforms root = true) : ∀ c ∈ root.children, c.extra = false → Sat (k0 .rootMember) c := by
  intro c hm he
  rcases conf_alts (conforms_root hc).2.2.2 (val := false) (ps := [[.many (k0 .rootMember)]]) rfl with h | ⟨_, _, _, h⟩
  · exact absurd h.1 (by simp)
  have h := confs_sound _ _ h
  rcases h with ⟨u, v, e, hu, hv⟩ | h
  · rw [show v = [] from hv, List.append_nil] at e
    exact lang_atom_star hu c (by rw [← e]; simp [hm, he])
  · exact h.elim

theorem members_named (hc : conforms root = true) : ∀ c ∈ root.children, c.extra = false → c.named = true := by
  intro c hm he
  have h := (members_sat hc c hm he).1
  simp only [Atom.fits, Bool.and_eq_true] at h
  simpa [k0] using h.1.1.1

theorem only_conforms (hc : conforms root = true) (hm : m ∈ root.children) (he : m.extra = false) : conforms (root.only m) = true := by
  obtain ⟨hk, hn, hxt, hcf⟩ := conforms_root hc
  have hs := members_sat hc m hm he
  have hnm := members_named hc m hm he
  rcases conf_alts hcf (val := false) (ps := [[.many (k0 .rootMember)]]) rfl with h | ⟨h1, h2, _, _⟩
  · exact absurd h.1 (by simp)
  have hq : (!(m.kind == "," || m.kind == ";") || (!m.named && tokenText m)) = true := by
    simp only [sane, Bool.and_eq_true, List.all_eq_true] at h1
    exact h1.1.1.2 m (by simp [hm, he])
  cases root with
  | mk id kind named extra err field sr er sb eb text children =>
    simp only at hk hn hxt
    subst hk hn hxt
    have hs' : sane "parser_output" [m] = true := by
      simp only [sane, he, List.filter_cons, List.all_cons, List.all_nil, orderly, Bool.not_false, Bool.true_or, Bool.and_true, Bool.true_and, if_true, List.filter_nil, hq]
      simp
    have hf : confs [m] (rxAlts [[.many (k0 .rootMember)]]) = true := by
      simp only [confs, he, rxAlts, rxSeq, Spec.rx, Rx.first, Rx.nullable, Bool.false_eq_true, if_false, if_true, List.append_nil, List.any_cons, List.any_nil,
        Bool.or_false, Bool.true_or, Bool.or_true, Bool.and_true, hs.1, Bool.true_and, Rx.der, hs.2 _ rfl]
      simp [k0, hs.2 _ rfl, Rx.nullable]
    simp only [Node.only, conforms, conf, Node.named, Bool.and_eq_true]
    refine ⟨trivial, ⟨by simp, by decide⟩, ?_⟩
    rw [show prod (NT.core (.cls .root) "parser_output") = .alts false [[.many (k0 .rootMember)]] from rfl]
    simp [hs', hf, dmlSane, Node.kind]

theorem only_extras (he : m.extra = false) (hx : m.extras = []) : (root.only m).extras = [] := by
  rw [extras_eq, only_children, kidsExtras, he, hx]
  simp [kidsExtras]

theorem only_depth (hm : m ∈ root.children) : depth (root.only m) ≤ depth root := by
  cases root with
  | mk id kind named extra err field sr er sb eb text children =>
    simp only [Node.only, depth, depths]
    have := depths_mem (ns := children) hm
    omega

theorem kidsClosed_mem : ∀ {ns : List Node}, kidsClosed ns → ∀ c ∈ ns, (c.associable = false → c.children = []) ∧ c.Closed
  | _ :: _, h, c, hc => by
    rw [kidsClosed] at h
    rcases List.mem_cons.1 hc with rfl | hc
    · exact ⟨h.1, h.2.1⟩
    · exact kidsClosed_mem h.2.2 c hc

theorem kidsCode_mem : ∀ {ns : List Node}, ∀ c ∈ ns, (kidsCode [c]).Sublist (kidsCode ns)
  | d :: r, c, hc => by
    rcases List.mem_cons.1 hc with rfl | hc
    · simp [kidsCode]
    · rw [kidsCode.eq_2 d r]
      exact (kidsCode_mem c hc).trans (List.sublist_append_right _ _)

mutual
theorem extras_sub : ∀ n : Node, (n.extras.map (·.node.id)).Sublist (idsOf n.children)
  | .mk id kind named extra err field sr er sb eb text children => by
    rw [Node.extras_eq]
    exact kids_sub children _ _
theorem kids_sub : ∀ (ns : List Node) (pid : Nat) (lefts : List Node), ((kidsExtras pid lefts ns).map (·.node.id)).Sublist (idsOf ns)
  | [], _, _ => by rw [kidsExtras, idsOf]; exact List.Sublist.refl _
  | c :: r, pid, lefts => by
    rw [kidsExtras, idsOf, ids_eq, List.map_append, List.map_append]
    refine List.Sublist.append ?_ (kids_sub r pid _)
    show List.Sublist _ ([c.id] ++ idsOf c.children)
    refine List.Sublist.append ?_ (extras_sub c)
    split
    · exact List.Sublist.refl _
    · exact List.nil_sublist _
end

theorem only_ids (hids : root.ids.Nodup) (hm : m ∈ root.children) : (root.only m).ids.Nodup := by
  rw [ids_eq, List.nodup_cons] at hids
  rw [ids_eq, only_children, only_id, idsOf, idsOf, List.append_nil, List.nodup_cons]
  exact ⟨fun h => hids.1 (mem_idsOf hm h), nodup_child hids.2 hm⟩

theorem only_sub : ((root.only m).extras.map (·.node.id)).Sublist m.ids := by
  have h := extras_sub (root.only m)
  rw [only_children, idsOf, idsOf, List.append_nil] at h
  exact h

theorem only_parsed (hp : Parsed root) (hids : root.ids.Nodup) (hm : m ∈ root.children) : Parsed (root.only m) := by
  obtain ⟨h1, h2, _⟩ := hp
  rw [ids_eq, List.nodup_cons] at hids
  refine ⟨?_, ?_, (nodup_child hids.2 hm).sublist only_sub⟩
  · cases root with
    | mk id kind named extra err field sr er sb eb text children =>
      rw [Node.Closed] at h1
      obtain ⟨a, b⟩ := kidsClosed_mem h1 m hm
      simp only [Node.only, Node.Closed, kidsClosed]
      exact ⟨a, b, trivial⟩
  · cases root with
    | mk id kind named extra err field sr er sb eb text children =>
      simp only [Node.only, Node.codeNodes, List.map_cons] at h2 ⊢
      exact h2.sublist (((kidsCode_mem m hm).map _).cons_cons _)

theorem kids_noError : ∀ {ns : List Node}, kidsHaveError ns = false → ∀ c ∈ ns, c.hasError = false
  | _ :: _, h, c, hc => by
    simp only [kidsHaveError, Bool.or_eq_false_iff] at h
    rcases List.mem_cons.1 hc with rfl | hc
    · exact h.1
    · exact kids_noError h.2 c hc

theorem only_noError (h : root.hasError = false) (hm : m ∈ root.children) : (root.only m).hasError = false :=
  only_error.2 ⟨(root_error.1 h).1, kids_noError (root_error.1 h).2 m hm⟩

/-! ### Comments inside of members -/

theorem bucket_all {cm : CMap} {i : Nat} {b : Bucket} (h : getBucket cm i = .ok b) : ∀ c ∈ b.all, c ∈ cm.all := by
  intro c hc
  unfold getBucket CMap.get? at h
  cases hf : cm.find? (fun p => p.1 == i) with
  | none => rw [hf] at h; cases h
  | some p =>
    rw [hf] at h
    simp only [Option.map_some, Except.ok.injEq] at h
    subst h
    unfold CMap.all
    exact List.mem_flatten.2 ⟨_, List.mem_map_of_mem (f := fun p : Nat × Bucket => p.2.all) (List.mem_of_find?_eq_some hf), hc⟩

mutual
/-- Only comments of the map are printed. -/
theorem build_log {cm : CMap} (k : Nat) : ∀ (p : Prog) (d : Doc) (log : List Comment), p.build k cm = .ok (d, log) → ∀ c ∈ log, c ∈ cm.all
  | .txt _, d, log, e | .nl, d, log, e | .softline, d, log, e | .maybeline, d, log, e | .forceBreak, d, log, e | .sep _, d, log, e => by
    simp only [Prog.build, Except.ok.injEq, Prod.mk.injEq] at e
    rw [← e.2]; simp
  | .fail _, d, log, e => by cases e
  | .concat ps, d, log, e => by
    simp only [Prog.build] at e
    split at e
    · rename_i ds l hx
      simp only [Except.ok.injEq, Prod.mk.injEq] at e
      rw [← e.2]
      exact builds_log k ps ds l hx
    · cases e
  | .group p, d, log, e | .indent p, d, log, e | .dedent p, d, log, e => by
    simp only [Prog.build] at e
    split at e
    · rename_i d' l hx
      simp only [Except.ok.injEq, Prod.mk.injEq] at e
      rw [← e.2]
      exact build_log k p d' l hx
    · cases e
  | .pre i, d, log, e | .post i, d, log, e => by
    simp only [Prog.build] at e
    split at e
    · rename_i b hx
      simp only [Except.ok.injEq, Prod.mk.injEq] at e
      rw [← e.2]
      exact fun c hc => bucket_all hx c (by simp [Bucket.all, hc])
    · cases e
  | .dangling i, d, log, e => by
    simp only [Prog.build] at e
    split at e
    · rename_i b hx
      split at e
      · cases e
      · simp only [Except.ok.injEq, Prod.mk.injEq] at e
        rw [← e.2]
        exact fun c hc => bucket_all hx c (by simp [Bucket.all, hc])
    · cases e
  | .rootDangling i, d, log, e => by
    simp only [Prog.build] at e
    split at e
    · simp only [Except.ok.injEq, Prod.mk.injEq] at e
      rw [← e.2]; simp
    · cases e
  | .punct i, d, log, e => by
    simp only [Prog.build] at e
    split at e
    · rename_i b hx
      simp only [Except.ok.injEq, Prod.mk.injEq] at e
      rw [← e.2]
      refine fun c hc => bucket_all hx c ?_
      unfold Bucket.all
      exact List.mem_append_left _ hc
    · cases e
  | .ifDangling i p q, d, log, e => by
    simp only [Prog.build] at e
    split at e
    · split at e
      · exact build_log k p d log e
      · exact build_log k q d log e
    · cases e
theorem builds_log {cm : CMap} (k : Nat) : ∀ (ps : List Prog) (ds : List Doc) (log : List Comment), Prog.builds k cm ps = .ok (ds, log) → ∀ c ∈ log, c ∈ cm.all
  | [], ds, log, e => by
    simp only [Prog.builds, Except.ok.injEq, Prod.mk.injEq] at e
    rw [← e.2]; simp
  | p :: ps, ds, log, e => by
    simp only [Prog.builds] at e
    split at e
    · cases e
    · rename_i d l hx
      split at e
      · cases e
      · rename_i ds' l' hy
        simp only [Except.ok.injEq, Prod.mk.injEq] at e
        rw [← e.2]
        intro c hc
        rcases List.mem_append.1 hc with hc | hc
        · exact build_log k p d l hx c hc
        · exact builds_log k ps ds' l' hy c hc
end

theorem Ran.log {checks : Bool} {depth : Nat} {cfg : Config} {n : Node} {out : Str} {cm : CMap} {log : List Comment}
    (h : Ran checks depth cfg n out cm log) : ∀ c ∈ log, c ∈ cm.all := by
  obtain ⟨P, d, _, h2, _⟩ := h.run
  exact build_log _ P d log h2

/-- Every tree that follows the grammar is printed; what may fail is the check for missing comments. -/
theorem ran_of_conforms {fuel : Nat} {cfg : Config} {n : Node} (hp : Parsed n) (hc : conforms n = true) (he : n.hasError = false)
    (hk : cfg.indentSize ≠ 0) (hf : 8 * depth n + 2 < fuel) : ∃ out cm log, Ran false fuel cfg n out cm log := by
  obtain ⟨h1, h2, h3, h4⟩ := conforms_root hc
  have hx := conf_extras n _ h4 hp.closed
  obtain ⟨cm, hcm⟩ := ((C14_every_comment_attached_once n hp.closed h2 h3).1).2 hx
  have hW := root_content (cfg := { cm, checks := false }) (good_of hp hc hcm) rfl h4 fuel
  cases hn : Prog.new { cm, checks := false } fuel .root (Loc.ofRoot n) with
  | error e =>
    rw [hn] at hW
    rcases (show Gram.Bad _ _ _ e from hW) with h | h
    · exact absurd h.2 (by omega)
    · exact absurd h.2 (by simp)
  | ok p =>
    rw [hn] at hW
    obtain ⟨is, log, hi, _, _⟩ := (show Sx (items cm p) (cont cm n) from hW).parts
    have hs := build_spec cfg.indentSize cm (commentMap_tidy hcm) p
    rw [items_plain cm p, hi] at hs
    obtain ⟨d, e, _, _⟩ := hs
    exact ⟨_, cm, log, he, hcm, hk, p, d, hn, e, rfl⟩

theorem all_ids {n : Node} {cm : CMap} (hp : Parsed n) (hc : conforms n = true) (h : commentMap n = .ok cm) :
    ∀ c ∈ cm.all, c.id ∈ n.extras.map (·.node.id) := by
  obtain ⟨_, h2, h3, _⟩ := conforms_root hc
  intro c hcm
  have := ((C14_every_comment_attached_once n hp.closed h2 h3).2 cm h).mem_iff.1 hcm
  obtain ⟨o, ho, rfl⟩ := List.mem_map.1 this
  exact List.mem_map.2 ⟨o, ho, by simp [Occ.comment]⟩

theorem same_member : ∀ {ns : List Node}, (idsOf ns).Nodup → ∀ {a b : Node}, a ∈ ns → b ∈ ns → ∀ {i : Nat}, i ∈ a.ids → i ∈ b.ids → a = b
  | n :: ns, h, a, b, ha, hb, i, hi, hj => by
    rw [idsOf, List.nodup_append] at h
    rcases List.mem_cons.1 ha with e | ha' <;> rcases List.mem_cons.1 hb with e' | hb'
    · rw [e, e']
    · subst e; exact absurd rfl (h.2.2 i hi i (mem_idsOf hb' hj))
    · subst e'; exact absurd rfl (h.2.2 i hj i (mem_idsOf ha' hi))
    · exact same_member h.2.1 ha' hb' hi hj

theorem ok_of_whole {fuel : Nat} {cfg : Config} {out : Str} (hp : Parsed root) (hids : root.ids.Nodup) (hc : conforms root = true)
    (hf : 8 * depth root + 2 < fuel) (hne : root.children ≠ []) (hm : ∀ m ∈ root.children, m.extra = false)
    (hr : ∀ m ∈ root.children.tail, m.startRow ≠ 0) (h : formatTree false fuel cfg root = .ok out) :
    ∀ m ∈ root.children, ∃ t, formatTree false fuel cfg (root.only m) = .ok t := by
  obtain ⟨C, log, hR, hall⟩ := ran_of_ok h
  have hmc : ∀ m ∈ root.children, Parsed (root.only m) ∧ conforms (root.only m) = true := fun m hmm =>
    ⟨only_parsed hp hids hmm, only_conforms hc hmm (hm m hmm)⟩
  have hran : ∀ m ∈ root.children, ∃ out cm log, Ran false fuel cfg (root.only m) out cm log := fun m hmm =>
    ran_of_conforms (hmc m hmm).1 (hmc m hmm).2 (only_noError hR.noError hmm) hR.indent (by have := only_depth hmm; omega)
  have hids' := hids
  rw [ids_eq, List.nodup_cons] at hids'
  let o : Node → Str := fun m => open Classical in if h : ∃ out cm log, Ran false fuel cfg (root.only m) out cm log then h.choose else []
  have ho : ∀ m ∈ root.children, ∃ cm log, Ran false fuel cfg (root.only m) (o m) cm log := by
    intro m hmm
    have h := hran m hmm
    have e : o m = h.choose := dif_pos h
    rw [e]
    exact h.choose_spec
  obtain ⟨text, C', log', h1, _, h3, h4, _⟩ := whole_ran hids hne (fun m hmm => ⟨members_named hc m hmm (hm m hmm), hm m hmm⟩) hr ho
  obtain ⟨_, rfl, rfl⟩ := hR.det h1
  intro m hmm
  obtain ⟨cm, l, hr⟩ := ho m hmm
  refine ⟨o m, hr.ok (fun c hcc => ?_)⟩
  obtain ⟨m', hmm', cm', l', hr', hcl⟩ := h4 c (hall c ((h3 m hmm cm l hr).2 c hcc))
  have i1 := only_sub.subset (all_ids (hmc m hmm).1 (hmc m hmm).2 hr.map c hcc)
  have i2 := only_sub.subset (all_ids (hmc m' hmm').1 (hmc m' hmm').2 hr'.map c (hr'.log c hcl))
  obtain rfl := same_member hids'.2 hmm hmm' i1 i2
  obtain ⟨_, _, rfl⟩ := hr.det hr'
  exact hcl

theorem whole_of_ok {fuel : Nat} {cfg : Config} (hids : root.ids.Nodup) (hc : conforms root = true) (hne : root.children ≠ [])
    (hm : ∀ m ∈ root.children, m.extra = false) (hr : ∀ m ∈ root.children.tail, m.startRow ≠ 0)
    (h : ∀ m ∈ root.children, ∃ t, formatTree false fuel cfg (root.only m) = .ok t) : ∃ t, formatTree false fuel cfg root = .ok t := by
  let o : Node → Str := fun m => match formatTree false fuel cfg (root.only m) with
    | .ok s => s
    | .error _ => []
  have ho : ∀ m ∈ root.children, formatTree false fuel cfg (root.only m) = .ok (o m) := by
    intro m hmm
    obtain ⟨t, ht⟩ := h m hmm
    simp only [o, ht]
  obtain ⟨text, C, log, h1, _, h3, _, h5⟩ := whole_ran hids hne (fun m hmm => ⟨members_named hc m hmm (hm m hmm), hm m hmm⟩) hr (fun m hmm => by
    obtain ⟨cm, log, h, _⟩ := ran_of_ok (ho m hmm)
    exact ⟨cm, log, h⟩)
  refine ⟨text, h1.ok (fun c hcc => ?_)⟩
  obtain ⟨m, hmm, cm, l, h, hx⟩ := h5 c hcc
  obtain ⟨cm', l', h', hall⟩ := ran_of_ok (ho m hmm)
  obtain ⟨_, rfl, rfl⟩ := h.det h'
  exact (h3 m hmm cm l h).1 c (hall c hx)

end Solo
end Afmt
