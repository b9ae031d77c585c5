import Verif.Notes.Lined
import Verif.Notes.Guard
import Verif.Notes.Frame
import Verif.Lines.Idem
import Verif.Mono

/-!
# Done: the lines of members and comments in the formatted text
-/

namespace Afmt.Notes
open Afmt.Gram
open Afmt.Lines (All All2 gaps base P P_get Trim tidy_of TidyTree child_of Tidy)

/-! ### Comments that keep their place -/

theorem member_firm {k : String} (h : memberKinds.contains k = true) : preHold k = .firm ∧ postHold k = .firm := by
  have key : memberKinds.all (fun k => preHold k == .firm && postHold k == .firm) = true := by decide +kernel
  have := List.all_eq_true.1 key k (by simpa using h)
  simpa using this

theorem firmly_brk (cm : CMap) (c : Node) (cs : List Node) : firmly (Gram.brk cm c cs) = Gram.brk cm c cs := by
  unfold Gram.brk
  split
  · exact firmly_sep _
  · rfl

section
variable {cm : CMap}

theorem firm_conts (body : Bool) : ∀ (cs : List Node), (∀ c ∈ cs, firmly (cont cm c) = cont cm c) →
    firmly (conts cm body cs) = conts cm body cs
  | [], _ => by rw [conts]; rfl
  | c :: cs, h => by
    rw [conts, firmly_append, firmly_append, h c List.mem_cons_self, firm_conts body cs (fun d hd => h d (List.mem_cons_of_mem _ hd))]
    cases body
    · rfl
    · rw [if_pos rfl, firmly_brk]

theorem kid_bucket {n c : Node} (h : KidsB cm n) (hc : c ∈ n.children) : Mem c ∨ bucketOf cm c.id = .empty := by
  cases hb : bodyKinds.contains n.kind with
  | false => exact .inr (h.calm hb c hc).2
  | true =>
    obtain ⟨xs, bs, ys, e, hxs, hys, hbs, ha, ho, hq⟩ := h.body hb
    by_cases hm : Mem c
    · exact .inl hm
    · exact .inr (hq c hc hm)

theorem firm_core (hd : ∀ i, (bucketOf cm i).dangling = []) {n : Node} (h : All (KidsB cm) n) : firmly (core cm n) = core cm n := by
  induction h with
  | @mk n hq hk ih =>
    by_cases hc : n.children = []
    · unfold core
      rw [hc]
      exact firmly_inl _
    · rw [core_kids hc]
      refine firm_conts _ _ (fun c hcc => ?_)
      cases hx : c.extra with
      | true => rw [cont_extra cm hx]; rfl
      | false =>
        rcases kid_bucket hq hcc with hm | hb
        · have hf := member_firm hm.2.2
          rw [cont_member (pre := (bucketOf cm c.id).pre) (post := (bucketOf cm c.id).post) hm (by rw [← hd c.id]), hf.1, hf.2]
          simp [ih c hcc]
        · rw [cont_quiet hx hb, ih c hcc]

theorem spots_firm : ∀ (k : Cont) (n : Nat), firmly k = k → ∀ e ∈ spots n k, e.1.1 = .firm
  | [], _, _, e, he => by cases he
  | .inl x :: k, n, h, e, he => by
    have e1 : firmly (.inl x :: k) = .inl x :: firmly k := rfl
    rw [e1] at h
    exact spots_firm k _ (List.cons.inj h).2 e he
  | .inr c :: k, n, h, e, he => by
    have hc : (c.1 == Hold.firm) = true := by
      have : Sum.inr c ∈ firmly (.inr c :: k) := by rw [h]; exact List.mem_cons_self
      exact (List.mem_filter.1 this).2
    have e1 : firmly (.inr c :: k) = .inr c :: firmly k := by
      simp only [firmly, List.filter_cons, hc, if_true]
    rw [e1] at h
    rw [spots] at he
    rcases List.mem_cons.1 he with rfl | he
    · exact beq_iff_eq.1 hc
    · exact spots_firm k _ (List.cons.inj h).2 e he

theorem firm_spots : ∀ (k : Cont) (n : Nat), (∀ e ∈ spots n k, e.1.1 = .firm) → firmly k = k
  | [], _, _ => rfl
  | .inl x :: k, n, h => congrArg (Sum.inl x :: ·) (firm_spots k _ h)
  | .inr c :: k, n, h => by
    rw [spots] at h
    have hc : (c.1 == Hold.firm) = true := beq_iff_eq.2 (h _ List.mem_cons_self)
    have e1 : firmly (.inr c :: k) = .inr c :: firmly k := by
      simp only [firmly, List.filter_cons, hc, if_true]
    rw [e1, firm_spots k n (fun e he => h e (List.mem_cons_of_mem _ he))]

end

/-! ### Trees -/

theorem tidyTree_both {root : Node} (h : All Trim root) (hf : All Both root) : TidyTree root := by
  refine ⟨fun l hl => (h.at hl).here.1, fun l hl => (h.at hl).here.2, ?_, ?_⟩
  · intro l hl hk
    obtain ⟨f, hs⟩ := (hf.at hl).here
    obtain ⟨c, hc, hn, he⟩ : ∃ c ∈ l.node.children, c.named = true ∧ c.extra = false := by
      obtain ⟨c, hc, hn⟩ := f.full hk
      cases hb : bodyKinds.contains l.node.kind with
      | false => exact ⟨c, hc, hn, hs.calm hb c hc⟩
      | true =>
        obtain ⟨xs, bs, ys, e, hx, hy, hbs, -⟩ := hs.body hb
        rw [e, List.mem_append, List.mem_append] at hc
        rcases hc with (hc | hc) | hc
        · rw [(hx c hc).1] at hn; cases hn
        · cases bs with
          | nil => cases hc
          | cons b bs =>
            have hm := blks_mem hbs List.mem_cons_self
            exact ⟨b.m, by rw [e]; simp, hm.1, hm.2.1⟩
        · rw [(hy c hc).1] at hn; cases hn
    obtain ⟨x, hxl, rfl⟩ := child_of hc
    refine List.ne_nil_of_mem (a := x) ?_
    unfold Loc.childrenVec Loc.namedChildren
    rw [List.mem_filter, List.mem_filter]
    exact ⟨⟨hxl, hn⟩, by simp [Loc.extra, he]⟩
  · intro l hl hk
    obtain ⟨c, hc, hn, hk⟩ := (hf.at hl).here.1.mods hk
    obtain ⟨x, hxl, rfl⟩ := child_of hc
    have key : ∀ k, x.node.kind = k → l.tryCsByK k ≠ [] := by
      intro k hk
      refine List.ne_nil_of_mem (a := x) ?_
      unfold Loc.tryCsByK Loc.namedChildren
      rw [List.mem_filter, List.mem_filter]
      exact ⟨⟨hxl, hn⟩, by simp [Loc.kind, hk]⟩
    rcases hk with hk | hk
    · exact .inl (key _ hk)
    · exact .inr (key _ hk)

theorem All.both {Q R : Node → Prop} {n : Node} (h : All Q n) (h' : All R n) : All (fun n => Q n ∧ R n) n := by
  induction h with
  | mk hq hk ih => exact .mk ⟨hq, h'.here⟩ (fun c hc => ih c hc (h'.kid hc))

/-! ### The formatted text -/

theorem lined_run {checks : Bool} {depth : Nat} {cfg : Config} {root : Node} {out : Str} (hp : Parsed root) (hi : root.ids.Nodup)
    (hc : conforms root = true) (hs : settled root = true) (ht : All Trim root)
    (h : formatTree checks depth cfg root = .ok out) : linedN out 0 root = true := by
  obtain ⟨cm, p, is, log, d, hcm, hn, hit, hb, -, hout, -, k, hk1, hk2, hk3, hk4⟩ := run_conts hp hc h
  obtain ⟨hkd, hnm, hex, hcf⟩ := conforms_root hc
  have hboth := settled_all root _ hcf hs (ht.imp (fun n hn => .inr (Lines.Tidy.ink hn.1)))
  have F : Found cm root := found_of (hboth.imp (fun _ h => h.2)) hex (by unfold isVisited; rw [hnm, hex]; rfl) hp.closed hi hcm
  have H := home_of F
  have T := tidyTree_both ht hboth
  letI K := srcOf cm F.nodup F.ok
  have hro : Roles (roleOf cm) cm := roles_of F.nodup F.ok
  have hso : Sounds (roleOf cm) cm := sounds_of F.ok
  -- the program is clean
  have hrun : run .I (syms (roleOf cm) cm p) ≠ .bad := by
    have hB : Body (Loc.ofRoot root) := by
      intro hk
      have : root.kind = "local_variable_declaration" := hk
      rw [hkd] at this
      exact absurd this (by decide)
    have hcall := call_t (cm := cm) (cfg := { cm, checks := false }) (good_of hp hc hcm) rfl rfl T H (max depth (8 * Gram.depth root + 3))
      (Call.node (c := .root) (l := .ofRoot root) .root rfl hcf hB) (by
        have h1 : rank Cls.root ≤ 2 := by decide
        have h2 : (Loc.ofRoot root).node = root := rfl
        rw [h2]
        omega)
    have hn' := new_below (cfg := { cm, checks }) (cfg' := { cm, checks := false }) ⟨rfl, fun h => nomatch h⟩
      (Nat.le_max_left depth (8 * Gram.depth root + 3)) .root (Loc.ofRoot root) p hn
    have hf := P_get hcall hn'
    replace hf : Notes.T .I [p] .P := hf
    unfold Notes.T at hf
    rw [symss, symss, List.append_nil] at hf
    intro hbad
    have hf : run .I (syms (roleOf cm) cm p) ≤ .P := hf
    rw [hbad] at hf
    exact absurd hf (by decide)
  have hfit := layout_fits hro hb cfg.maxWidth hrun
  rw [← hout, (marks_syms hro hso p is log hit (run_clean hrun) none).1, marksX_same _ none hk1] at hfit
  have hcont : cont cm root = core cm root := cont_quiet hex F.root
  have hfirm : firmly (cont cm root) = cont cm root := by
    rw [hcont]; exact firm_core (fun i => (F.ok i).dangling) F.kids
  have hkk : k = cont cm root := by
    rw [← hfirm, ← hk4]
    exact (firm_spots k 0 (fun e he => spots_firm _ 0 hfirm e (hk3.mem_iff.1 he))).symm
  rw [hkk, hcont] at hfit
  have hrows := rowsM_of_gaps (r := rowAt out) (i := 0) (p := 0) out hfit (fun j => by simp)
  exact lined_of hro (All.both F.kids (ht.imp (fun n hn => .inr (Lines.Tidy.ink hn.1)))) 0 0 none (by simp) hrows

theorem parsed_ids {root : Node} (hc : root.Closed) (hi : root.ids.Nodup) : Parsed root := by
  refine ⟨hc, (Lines.codeNodes_ids root).nodup hi, (extras_sub root).nodup ?_⟩
  rw [ids_eq, List.nodup_cons] at hi
  exact hi.2

open Lines (retext retext_conforms retext_closed retext_ids retext_children retext_skel neats_all) in
theorem format_linedN {checks : Bool} {depth : Nat} {cfg : Config} {root : Node} {out : Str} (hcl : root.Closed) (hi : root.ids.Nodup)
    (hf : root.field = none) (hc : conforms root = true) (hs : settled root = true) (ht : neats root.children = true)
    (h : formatTree checks depth cfg root = .ok out) : linedN out 0 root = true := by
  obtain ⟨hk, -, hex, -⟩ := conforms_root hc
  by_cases hne : root.children = []
  · rw [linedN_eq, hne, linedNs]
  · have hl : linedN out 0 (retext ['x'] root) = linedN out 0 root := by cases root; simp [retext, linedN]
    rw [← hl]
    have hs' : settled (retext ['x'] root) = true := by cases root; simpa [retext, settled] using hs
    have hi' : (retext ['x'] root).ids.Nodup := by rw [retext_ids]; exact hi
    refine lined_run (parsed_ids (retext_closed _ hcl) hi') hi' (retext_conforms _ hc hne) hs' ?_
      ((C50_only_the_skeleton_matters _ _ checks (retext_skel ['x'] hk hex hf) hi' hi depth cfg out).2 h)
    refine .mk ?_ (fun c hc => neats_all root.children ht c (by rwa [retext_children] at hc))
    cases root with
    | mk id kind named extra err field sr er sb eb text children =>
      simp only at hk
      subst hk
      exact ⟨tidy_of (s := ['x']) (by decide), tidy_of (s := "parser_output".toList) (by decide +kernel)⟩

end Afmt.Notes
