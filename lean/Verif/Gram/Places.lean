import Verif.Gram.Final
import Verif.PlaceSpec

/-!
# Where the comments of the content are in the source
-/

namespace Afmt.Gram

/-! ### Counting -/

@[simp] theorem flagsOf_append (a b : List (Sum Bool Nat)) : flagsOf (a ++ b) = flagsOf a ++ flagsOf b := List.filterMap_append

/-- The number of characters with flags of interest: those of names and literals, or all. -/
def cnt (w : Bool → Bool) (s : List Bool) : Nat := s.countP w

/-- The same for code. -/
def anc (w : Bool → Bool) (k : List (Bool × Ch)) : Nat := k.countP fun
  | (b, .c _) => w (!b)
  | (_, .sep _) => false

/-- The comments of the content with the number of such characters before them, counted from `n`. -/
def spotsW (w : Bool → Bool) : Nat → Cont → List ((Hold × Option Nat) × Comment)
  | _, [] => []
  | n, .inl x :: k => spotsW w (n + anc w [x]) k
  | n, .inr c :: k => (c.1.spot n, c.2) :: spotsW w n k

theorem anc_id (k : List (Bool × Ch)) : anc id k = anchors k := by
  unfold anc anchors
  congr 1

theorem spotsW_id : ∀ (k : Cont) (n : Nat), spotsW id n k = spots n k
  | [], _ => rfl
  | .inl x :: k, n => by
    rw [spotsW, spots, spotsW_id k, anc_id]
    congr 1
    rw [anchors, List.countP_cons]
    cases isAnchor x <;> rfl
  | .inr c :: k, n => by rw [spotsW, spots, spotsW_id k]

variable {w : Bool → Bool}

@[simp] theorem anc_nil : anc w [] = 0 := rfl
@[simp] theorem anc_append (a b : List (Bool × Ch)) : anc w (a ++ b) = anc w a + anc w b := List.countP_append
@[simp] theorem cnt_append (a b : List Bool) : cnt w (a ++ b) = cnt w a + cnt w b := List.countP_append
@[simp] theorem nameCount_append (a b : List Bool) : nameCount (a ++ b) = nameCount a + nameCount b := List.countP_append

theorem spotsW_append : ∀ (a b : Cont) (n : Nat), spotsW w n (a ++ b) = spotsW w n a ++ spotsW w (n + anc w (codeC a)) b
  | [], b, n => rfl
  | .inl x :: a, b, n => by
    have e : codeC (.inl x :: a) = [x] ++ codeC a := rfl
    rw [List.cons_append, spotsW, spotsW, spotsW_append a b, e, anc_append, Nat.add_assoc]
  | .inr c :: a, b, n => by
    have e : codeC (.inr c :: a) = codeC a := rfl
    rw [List.cons_append, spotsW, spotsW, spotsW_append a b, e, List.cons_append]

theorem spotsW_com (h : Hold) (cs : List Comment) (n : Nat) : spotsW w n (comC h cs) = cs.map (fun c => (h.spot n, c)) := by
  induction cs with
  | nil => rfl
  | cons c cs ih =>
    have e : comC h (c :: cs) = .inr (h, c) :: comC h cs := rfl
    rw [e, spotsW, ih]; rfl

theorem spotsW_inl (k : List (Bool × Letter)) (n : Nat) : spotsW w n (inlC k) = [] := by
  induction k generalizing n with
  | nil => rfl
  | cons e k ih =>
    have h : inlC (e :: k) = .inl (e.1, .c e.2) :: inlC k := rfl
    rw [h, spotsW, ih]

/-- Characters of names and literals of a node. -/
def names (w : Bool → Bool) (n : Node) : Nat := cnt w (flagsOf (stream n))
/-- Characters of names and literals of siblings. -/
def namesL (w : Bool → Bool) (ns : List Node) : Nat := cnt w (flagsOf (kidsStream ns))

theorem kidsStream_append (a b : List Node) : kidsStream (a ++ b) = kidsStream a ++ kidsStream b := by
  induction a with
  | nil => rfl
  | cons c a ih => rw [List.cons_append, kidsStream, kidsStream, ih, List.append_assoc]

@[simp] theorem namesL_nil : namesL w [] = 0 := rfl
@[simp] theorem namesL_cons (c : Node) (cs : List Node) : namesL w (c :: cs) = names w c + namesL w cs := by
  simp [namesL, names, kidsStream]
@[simp] theorem namesL_append (a b : List Node) : namesL w (a ++ b) = namesL w a + namesL w b := by
  simp [namesL, kidsStream_append]
theorem namesL_reverse (a : List Node) : namesL w a.reverse = namesL w a := by
  induction a with
  | nil => rfl
  | cons c a ih => simp [ih]; omega

theorem stream_extra {n : Node} (h : n.extra = true) : stream n = [.inr n.id] := by
  cases n with
  | mk _ _ _ _ _ _ _ _ _ _ _ children => simp only at h; subst h; cases children <;> simp [stream]

theorem stream_kids {n : Node} (h : n.extra = false) (hc : n.children ≠ []) : stream n = kidsStream n.children := by
  cases n with
  | mk id kind named extra err field sr er sb eb text children =>
    simp only at h hc
    subst h
    cases children with
    | nil => exact absurd rfl hc
    | cons c cs => simp [stream, kidsStream]

theorem stream_leaf {n : Node} (h : n.extra = false) (hc : n.children = []) :
    stream n = (ink n.text).map (fun _ => .inl (nameKind n.named n.kind)) := by
  cases n; simp only at h hc; subst h hc; simp [stream]

/-- Nodes no comment can be attached to are no names. -/
theorem names_extra {n : Node} (he : n.extra = true) : names w n = 0 := by
  rw [names, stream_extra he]; rfl

theorem flags_leaf (f : Bool) (s : Str) : flagsOf (s.map (fun _ => .inl f)) = List.replicate s.length f := by
  induction s with
  | nil => rfl
  | cons c s ih =>
    have : flagsOf ((c :: s).map (fun _ => .inl f)) = f :: flagsOf (s.map (fun _ => .inl f)) := rfl
    rw [this, ih]; rfl

theorem cnt_leaf (f : Bool) (s : Str) : cnt w (flagsOf (s.map (fun _ => .inl f))) = if w f then s.length else 0 := by
  rw [flags_leaf, cnt, List.countP_replicate]

theorem names_plain (hw : w false = false) {n : Node} (ha : n.associable = false) (hc : n.children = []) : names w n = 0 := by
  cases he : n.extra with
  | true => exact names_extra he
  | false =>
    rw [names, stream_leaf he hc]
    have hn : n.named = false := by
      simp only [Node.associable, he, Bool.not_false, Bool.true_and, Bool.or_eq_false_iff] at ha
      exact ha.1
    have : nameKind n.named n.kind = false := by simp [nameKind, hn]
    rw [this, cnt_leaf, hw]
    rfl

theorem namesL_zero : ∀ {ns : List Node}, (∀ n ∈ ns, names w n = 0) → namesL w ns = 0
  | [], _ => rfl
  | n :: ns, h => by
    rw [namesL_cons, h n (by simp), namesL_zero (fun m hm => h m (by simp [hm]))]

theorem anc_leaf (f : Bool) (s : List Letter) : anc w (lift (s.map (fun c => (!f, c)))) = if w f then s.length else 0 := by
  induction s with
  | nil => simp [lift]
  | cons c s ih =>
    have e : lift ((c :: s).map (fun c => (!f, c))) = [(!f, .c c)] ++ lift (s.map (fun c => (!f, c))) := rfl
    have e1 : anc w [(!f, .c c)] = if w f then 1 else 0 := by
      rw [anc, List.countP_cons, List.countP_nil]
      simp
    rw [e, anc_append, ih, e1]
    split
    · simp; omega
    · rfl

theorem letters_length (s : Str) : (letters false s).length = (ink s).length := by
  rw [← letters_ink s false, List.length_map]

theorem anc_brk (cm : CMap) (c : Node) (cs : List Node) (b : Bool) : anc w (codeC (if b then brk cm c cs else [])) = 0 := by
  unfold brk
  split
  · split <;> rfl
  · rfl

mutual
/-- The characters whose letter case matters in the content. -/
theorem anc_cont (cm : CMap) : ∀ n : Node, anc w (codeC (cont cm n)) = names w n
  | .mk id kind named extra err field sr er sb eb text children => by
    rw [names]
    cases extra with
    | true => cases children <;> simp [cont, stream, flagsOf, cnt]
    | false =>
      cases children with
      | nil =>
        simp only [cont, stream, Bool.false_eq_true, if_false, codeC_append, codeC_bcomIf, codeC_acomIf, List.nil_append,
          List.append_nil, codeC_inl]
        have e : (!named || foldKinds.contains kind) = !nameKind named kind := by
          simp only [nameKind, Bool.not_and, Bool.not_not]
        rw [e, anc_leaf, cnt_leaf, letters_length]
      | cons c cs =>
        simp only [cont, stream, Bool.false_eq_true, if_false, codeC_append, codeC_bcomIf, codeC_acomIf, List.nil_append,
          List.append_nil, anc_append, anc_brk, anc_cont cm c, anc_conts cm _ cs, flagsOf_append,
          cnt_append, Nat.zero_add]
        rfl
theorem anc_conts (cm : CMap) (b : Bool) : ∀ ns : List Node, anc w (codeC (conts cm b ns)) = namesL w ns
  | [] => rfl
  | c :: cs => by
    rw [conts, codeC_append, codeC_append, anc_append, anc_append, anc_brk, anc_cont cm c,
      anc_conts cm b cs, namesL_cons, Nat.zero_add]
end

/-! ### Nodes with their places -/

mutual
/-- The code nodes with the number of characters of names and literals before them and up to their end. -/
def places (w : Bool → Bool) (n : Nat) : Node → List (Node × Nat × Nat)
  | .mk id kind named extra err field sr er sb eb text children =>
    (.mk id kind named extra err field sr er sb eb text children, n,
      n + names w (.mk id kind named extra err field sr er sb eb text children)) :: kidsPlaces w n children
/-- `places` of siblings. -/
def kidsPlaces (w : Bool → Bool) (n : Nat) : List Node → List (Node × Nat × Nat)
  | [] => []
  | c :: r => (if c.associable then places w n c else []) ++ kidsPlaces w (n + names w c) r
end

theorem places_eq (n : Nat) (m : Node) : places w n m = (m, n, n + names w m) :: kidsPlaces w n m.children := by
  cases m; rw [places]

mutual
theorem places_code : ∀ (m : Node) (n : Nat), (places w n m).map (·.1) = m.codeNodes
  | .mk id kind named extra err field sr er sb eb text children, n => by
    rw [places, Node.codeNodes, List.map_cons, kidsPlaces_code children n]
theorem kidsPlaces_code : ∀ (ms : List Node) (n : Nat), (kidsPlaces w n ms).map (·.1) = kidsCode ms
  | [], _ => rfl
  | c :: r, n => by
    rw [kidsPlaces, kidsCode, List.map_append, kidsPlaces_code r]
    split
    · rw [places_code c n]
    · rfl
end

/-- Different places have different ids. -/
theorem places_inj {root : Node} (hn : (ids root).Nodup) {a b : Node × Nat × Nat} (ha : a ∈ places w 0 root)
    (hb : b ∈ places w 0 root) (h : a.1.id = b.1.id) : a = b := by
  have e : (places w 0 root).map (fun e => e.1.id) = ids root := by
    rw [ids, ← places_code root 0, List.map_map]; rfl
  rw [← e] at hn
  generalize places w 0 root = L at hn ha hb
  induction L with
  | nil => cases ha
  | cons x L ih =>
    rw [List.map_cons, List.nodup_cons] at hn
    rcases List.mem_cons.1 ha with e | ha'
    · rcases List.mem_cons.1 hb with e' | hb'
      · rw [e, e']
      · exact absurd (List.mem_map.2 ⟨b, hb', by rw [← h, e]⟩) hn.1
    · rcases List.mem_cons.1 hb with e' | hb'
      · exact absurd (List.mem_map.2 ⟨a, ha', by rw [h, e']⟩) hn.1
      · exact ih hn.2 ha' hb'

theorem kidsPlaces_split (s : Node) (hs : s.associable = true) (B : List Node) : ∀ (A : List Node) (n : Nat),
    (s, n + namesL w A, n + namesL w A + names w s) ∈ kidsPlaces w n (A ++ s :: B)
  | [], n => by
    rw [List.nil_append, kidsPlaces, if_pos hs, places_eq]
    simp
  | a :: A, n => by
    rw [List.cons_append, kidsPlaces]
    refine List.mem_append_right _ ?_
    have := kidsPlaces_split s hs B A (n + names w a)
    rw [namesL_cons]
    rwa [← Nat.add_assoc]

mutual
/-- The place of a child. -/
theorem places_kid : ∀ (m : Node) (n : Nat) {P : Node} {p q : Nat}, (P, p, q) ∈ places w n m → ∀ {A : List Node} {s : Node} {B : List Node},
    P.children = A ++ s :: B → s.associable = true → (s, p + namesL w A, p + namesL w A + names w s) ∈ places w n m
  | .mk id kind named extra err field sr er sb eb text children, n, P, p, q, h, A, s, B, hc, hs => by
    rw [places] at h ⊢
    refine List.mem_cons_of_mem _ ?_
    rcases List.mem_cons.1 h with e | h
    · cases e
      have hc : children = A ++ s :: B := hc
      rw [hc]
      exact kidsPlaces_split s hs B A n
    · exact kidsPlaces_kid children n h hc hs
theorem kidsPlaces_kid : ∀ (ms : List Node) (n : Nat) {P : Node} {p q : Nat}, (P, p, q) ∈ kidsPlaces w n ms → ∀ {A : List Node} {s : Node} {B : List Node},
    P.children = A ++ s :: B → s.associable = true → (s, p + namesL w A, p + namesL w A + names w s) ∈ kidsPlaces w n ms
  | [], _, _, _, _, h, _, _, _, _, _ => by cases h
  | c :: r, n, P, p, q, h, A, s, B, hc, hs => by
    rw [kidsPlaces] at h ⊢
    rcases List.mem_append.1 h with h | h
    · refine List.mem_append_left _ ?_
      split at h
      · rename_i ha
        rw [if_pos ha]
        exact places_kid c n h hc hs
      · cases h
    · exact List.mem_append_right _ (kidsPlaces_kid r _ h hc hs)
end

/-! ### The comments of the source -/

/-- A comment of the source: its parent and what is before it. -/
def Found (w : Bool → Bool) (L : List (Node × Nat × Nat)) (i k : Nat) : Prop :=
  ∃ P p q lefts c rights, (P, p, q) ∈ L ∧ P.children = lefts.reverse ++ c :: rights ∧ c.extra = true ∧ c.id = i ∧
    k = p + namesL w lefts

theorem Found.mono {L L' : List (Node × Nat × Nat)} {i k : Nat} (h : Found w L i k) (hs : ∀ e ∈ L, e ∈ L') : Found w L' i k := by
  obtain ⟨P, p, q, l, c, r, h1, h2⟩ := h
  exact ⟨P, p, q, l, c, r, hs _ h1, h2⟩

/-- A comment in the stream of siblings is one of them or below. -/
def FoundIn (w : Bool → Bool) (n : Nat) (ns : List Node) (i k : Nat) : Prop :=
  Found w (kidsPlaces w n ns) i k ∨ ∃ lefts c rights, ns = lefts.reverse ++ c :: rights ∧ c.extra = true ∧ c.id = i ∧ k = n + namesL w lefts

mutual
theorem stream_found : ∀ (m : Node) (n : Nat), m.Closed → m.extra = false → ∀ {x : List (Sum Bool Nat)} {i : Nat} {y : List (Sum Bool Nat)},
    stream m = x ++ .inr i :: y → Found w (places w n m) i (n + cnt w (flagsOf x))
  | .mk id kind named extra err field sr er sb eb text children, n, hcl, he, x, i, y, h => by
    have he : extra = false := he
    subst he
    cases children with
    | nil =>
      rw [stream_leaf rfl rfl] at h
      exfalso
      have : (Sum.inr i : Sum Bool Nat) ∈ (ink text).map (fun _ => Sum.inl (nameKind named kind)) := by
        have e : (ink text).map (fun _ => Sum.inl (nameKind named kind)) = x ++ .inr i :: y := h
        rw [e]; simp
      simp at this
    | cons c cs =>
      rw [stream_kids rfl (by simp)] at h
      rw [places]
      rcases kids_found (c :: cs) n (by simpa [Node.Closed] using hcl) h with h | ⟨l, d, r, h1, h2, h3, h4⟩
      · exact h.mono (fun e he => List.mem_cons_of_mem _ he)
      · exact ⟨_, _, _, l, d, r, List.mem_cons_self, h1, h2, h3, h4⟩
theorem kids_found : ∀ (ms : List Node) (n : Nat), kidsClosed ms → ∀ {x : List (Sum Bool Nat)} {i : Nat} {y : List (Sum Bool Nat)},
    kidsStream ms = x ++ .inr i :: y → FoundIn w n ms i (n + cnt w (flagsOf x))
  | [], n, _, x, i, y, h => by
    have h : [] = x ++ .inr i :: y := h
    simp at h
  | c :: r, n, hcl, x, i, y, h => by
    rw [kidsClosed] at hcl
    rw [kidsStream] at h
    rcases List.append_eq_append_iff.1 h with ⟨z, h1, h2⟩ | ⟨z, h1, h2⟩
    · -- `x = stream c ++ z`
      subst h1
      rcases kids_found r (n + names w c) hcl.2.2 h2 with hf | ⟨l, d, rr, e1, e2, e3, e4⟩
      · left
        rw [flagsOf_append, cnt_append, ← Nat.add_assoc]
        exact hf.mono (fun e he => by rw [kidsPlaces]; exact List.mem_append_right _ he)
      · right
        refine ⟨l ++ [c], d, rr, by simp [e1], e2, e3, ?_⟩
        have : names w c = cnt w (flagsOf (stream c)) := rfl
        simp only [flagsOf_append, cnt_append, namesL_append, namesL_cons, namesL_nil] at e4 ⊢
        omega
    · cases z with
      | nil =>
        rw [List.append_nil] at h1
        subst h1
        rcases kids_found r (n + names w c) hcl.2.2 (x := []) h2.symm with hf | ⟨l, d, rr, e1, e2, e3, e4⟩
        · left
          have : n + cnt w (flagsOf (stream c)) = n + names w c + cnt w (flagsOf []) := rfl
          rw [this]
          exact hf.mono (fun e he => by rw [kidsPlaces]; exact List.mem_append_right _ he)
        · right
          refine ⟨l ++ [c], d, rr, by simp [e1], e2, e3, ?_⟩
          have h0 : n + cnt w (flagsOf (stream c)) = n + names w c + cnt w (flagsOf []) := rfl
          rw [h0, e4]
          simp only [namesL_append, namesL_cons, namesL_nil]
          omega
      | cons w z =>
        rw [List.cons_append, List.cons.injEq] at h2
        obtain ⟨rfl, rfl⟩ := h2
        cases he : c.extra with
        | true =>
          rw [stream_extra he] at h1
          cases x with
          | nil =>
            right
            have e : c.id = i := Sum.inr.inj (List.cons.inj h1).1
            exact ⟨[], c, r, rfl, he, e, by simp [flagsOf, cnt]⟩
          | cons a x => simp at h1
        | false =>
          left
          have hf := stream_found c n hcl.2.1 he h1
          refine hf.mono (fun e hm => ?_)
          rw [kidsPlaces]
          refine List.mem_append_left _ ?_
          cases ha : c.associable with
          | true => simpa using hm
          | false =>
            exfalso
            have hl := stream_leaf he (hcl.1 ha)
            rw [hl] at h1
            have : (Sum.inr i : Sum Bool Nat) ∈ (ink c.text).map (fun _ => Sum.inl (nameKind c.named c.kind)) := by rw [h1]; simp
            simp at this
end

mutual
/-- Every comment is in the stream. -/
theorem stream_extras : ∀ (m : Node), m.Closed → m.extra = false → ∀ o ∈ m.extras, .inr o.node.id ∈ stream m
  | .mk id kind named extra err field sr er sb eb text children, hcl, he, o, ho => by
    have he : extra = false := he
    subst he
    rw [Node.extras] at ho
    cases children with
    | nil => cases ho
    | cons c cs =>
      rw [stream_kids rfl (by simp)]
      exact kids_stream_extras id (c :: cs) [] (by simpa [Node.Closed] using hcl) o ho
theorem kids_stream_extras (pid : Nat) : ∀ (ms L : List Node), kidsClosed ms → ∀ o ∈ kidsExtras pid L ms,
    .inr o.node.id ∈ kidsStream ms
  | [], _, _, o, ho => by cases ho
  | c :: r, L, hcl, o, ho => by
    rw [kidsClosed] at hcl
    rw [kidsExtras] at ho
    rw [kidsStream]
    rcases List.mem_append.1 ho with ho | ho
    · refine List.mem_append_left _ ?_
      rcases List.mem_append.1 ho with ho | ho
      · split at ho
        · rename_i hx
          rw [List.mem_singleton.1 ho, stream_extra hx]
          exact List.mem_singleton_self _
        · cases ho
      · cases hx : c.extra with
        | false => exact stream_extras c hcl.2.1 hx o ho
        | true =>
          have hc : c.children = [] := hcl.1 (by simp [Node.associable, hx])
          rw [Node.extras_eq, hc] at ho
          cases ho
    · exact List.mem_append_right _ (kids_stream_extras pid r _ hcl.2.2 o ho)
end

mutual
theorem places_spans : ∀ (m : Node) (n : Nat), places (fun _ => true) n m = spans n m
  | .mk id kind named extra err field sr er sb eb text children, n => by
    rw [places, spans, kidsPlaces_spans children n, names, cnt, List.countP_true]
theorem kidsPlaces_spans : ∀ (ms : List Node) (n : Nat), kidsPlaces (fun _ => true) n ms = kidsSpans n ms
  | [], _ => rfl
  | c :: r, n => by
    rw [kidsPlaces, kidsSpans, kidsPlaces_spans r, places_spans c n, names, cnt, List.countP_true]
end

/-! ### The comments of the content -/

/-- A comment of the content: its owner and the place of the owner. -/
def Kept (cm : CMap) (L : List (Node × Nat × Nat)) (e : (Hold × Option Nat) × Comment) : Prop :=
  ∃ M p q, (M, p, q) ∈ L ∧
    ((e.2 ∈ cm.slot (.pre M.id) ∧ e.1 = (preHold M.kind).spot p) ∨
      (e.2 ∈ cm.slot (.dangling M.id) ∧ e.1 = Hold.spot .loose p) ∨
      (e.2 ∈ cm.slot (.post M.id) ∧ e.1 = (postHold M.kind).spot q))

theorem Kept.mono {cm : CMap} {L L' : List (Node × Nat × Nat)} {e : (Hold × Option Nat) × Comment} (h : Kept cm L e)
    (hs : ∀ e ∈ L, e ∈ L') : Kept cm L' e := by
  obtain ⟨M, p, q, h1, h2⟩ := h
  exact ⟨M, p, q, hs _ h1, h2⟩

theorem spots_bcom {cm : CMap} {kind : String} {id n : Nat} {e : (Hold × Option Nat) × Comment}
    (h : e ∈ spotsW w n (bcom cm kind id)) : (e.2 ∈ cm.slot (.pre id) ∧ e.1 = (preHold kind).spot n) ∨
      (e.2 ∈ cm.slot (.dangling id) ∧ e.1 = Hold.spot .loose n) := by
  unfold bcom at h
  cases hb : cm.get? id with
  | none => rw [hb] at h; cases h
  | some b =>
    rw [hb] at h
    simp only [spotsW_append, spotsW_com, codeC_com, anc_nil, Nat.add_zero, List.mem_append, List.mem_map] at h
    simp only [CMap.slot, hb, Option.map_some, Option.getD_some]
    rcases h with ⟨c, hc, rfl⟩ | ⟨c, hc, rfl⟩
    · exact .inl ⟨hc, rfl⟩
    · exact .inr ⟨hc, rfl⟩

theorem spots_acom {cm : CMap} {kind : String} {id n : Nat} {e : (Hold × Option Nat) × Comment}
    (h : e ∈ spotsW w n (acom cm kind id)) : e.2 ∈ cm.slot (.post id) ∧ e.1 = (postHold kind).spot n := by
  unfold acom at h
  cases hb : cm.get? id with
  | none => rw [hb] at h; cases h
  | some b =>
    rw [hb] at h
    simp only [spotsW_com, List.mem_map] at h
    simp only [CMap.slot, hb, Option.map_some, Option.getD_some]
    obtain ⟨c, hc, rfl⟩ := h
    exact ⟨hc, rfl⟩

theorem spots_brk (cm : CMap) (c : Node) (cs : List Node) (b : Bool) (n : Nat) : spotsW w n (if b then brk cm c cs else []) = [] := by
  unfold brk
  split
  · split <;> rfl
  · rfl

mutual
theorem spots_cont (cm : CMap) : ∀ (m : Node) (n : Nat), m.Closed → (m.associable = false → m.children = []) →
    ∀ e ∈ spotsW w n (cont cm m), m.associable = true ∧ Kept cm (places w n m) e
  | .mk id kind named extra err field sr er sb eb text children, n, hcl, hl, e, he => by
    cases extra with
    | true =>
      rw [cont_extra cm (by rfl)] at he
      cases he
    | false =>
      cases ha : (named || isAssociableUnnamedKind kind) with
      | false =>
        have hc : children = [] := hl (by simp [Node.associable, ha])
        subst hc
        simp only [cont, ha, Bool.false_eq_true, if_false, List.nil_append, List.append_nil, spotsW_inl] at he
        cases he
      | true =>
        refine ⟨by simp [Node.associable, ha], ?_⟩
        have hin : ∀ (K : Cont), (∀ e ∈ spotsW w n K, Kept cm (kidsPlaces w n children) e) →
            anc w (codeC K) = names w (.mk id kind named false err field sr er sb eb text children) →
            e ∈ spotsW w n (bcom cm kind id ++ K ++ acom cm kind id) →
            Kept cm (places w n (.mk id kind named false err field sr er sb eb text children)) e := by
          intro K hK hz he
          rw [places]
          rw [spotsW_append, spotsW_append, codeC_append, codeC_bcom, List.nil_append, anc_nil, Nat.add_zero, List.mem_append,
            List.mem_append] at he
          rcases he with (he | he) | he
          · refine ⟨_, _, _, List.mem_cons_self, ?_⟩
            rcases spots_bcom he with h | h
            · exact .inl h
            · exact .inr (.inl h)
          · exact (hK e he).mono (fun e he => List.mem_cons_of_mem _ he)
          · rw [hz] at he
            exact ⟨_, _, _, List.mem_cons_self, .inr (.inr (spots_acom he))⟩
        have hz := anc_cont (w := w) cm (.mk id kind named false err field sr er sb eb text children)
        cases children with
        | nil =>
          simp only [cont, ha, Bool.false_eq_true, if_false, if_true] at he hz
          refine hin _ ?_ ?_ he
          · intro e he
            rw [spotsW_inl] at he
            cases he
          · rw [← hz]
            simp [codeC_bcom, codeC_acom]
        | cons c cs =>
          simp only [cont, ha, Bool.false_eq_true, if_false, if_true] at he hz
          refine hin _ ?_ ?_ he
          · exact spots_conts cm (bodyKinds.contains kind) (c :: cs) n (by simpa [Node.Closed] using hcl)
          · rw [← hz]
            simp [codeC_bcom, codeC_acom]
theorem spots_conts (cm : CMap) (b : Bool) : ∀ (ms : List Node) (n : Nat), kidsClosed ms → ∀ e ∈ spotsW w n (conts cm b ms),
    Kept cm (kidsPlaces w n ms) e
  | [], _, _, e, he => by cases he
  | c :: r, n, hcl, e, he => by
    rw [kidsClosed] at hcl
    rw [conts, spotsW_append, spotsW_append, spots_brk, anc_brk, Nat.add_zero, List.nil_append, anc_cont, List.mem_append] at he
    rw [kidsPlaces]
    rcases he with he | he
    · obtain ⟨ha, hk⟩ := spots_cont cm c n hcl.2.1 hcl.1 e he
      rw [if_pos ha]
      exact hk.mono (fun e he => List.mem_append_left _ he)
    · exact (spots_conts cm b r _ hcl.2.2 e he).mono (fun e he => List.mem_append_right _ he)
end

/-! ### The owner of a comment is next to it -/

/-- Nothing a comment could be attached to is between a comment and its owner. -/
def Next (o : Occ) : Prop :=
    (o.owner = .dangling o.parent ∧ ∀ s ∈ o.lefts ++ o.rights, s.associable = false) ∨
    (∃ mid s rest, o.rights = mid ++ s :: rest ∧ (∀ m ∈ mid, m.associable = false) ∧ s.associable = true ∧ o.owner = .pre s.id) ∨
    (∃ mid s rest, o.lefts = mid ++ s :: rest ∧ (∀ m ∈ mid, m.associable = false) ∧ s.associable = true ∧ o.owner = .post s.id)

theorem owner_next (o : Occ) : Next o := by
  have hsp : ∀ {f : Node → Bool} {l : List Node} {s : Node}, l.find? f = some s →
      ∃ mid rest, l = mid ++ s :: rest ∧ ∀ m ∈ mid, f m = false := by
    intro f l s h
    rw [List.find?_eq_some_iff_append] at h
    obtain ⟨_, mid, rest, e, hm⟩ := h
    exact ⟨mid, rest, e, fun m hmm => by simpa using hm m hmm⟩
  have hfar : farOwner o.parent o.lefts o.rights = o.owner → Next o := by
    intro h
    unfold farOwner at h
    cases hr : o.rights.find? (·.associable) with
    | some s =>
      rw [hr] at h
      obtain ⟨mid, rest, e, hm⟩ := hsp hr
      exact .inr (.inl ⟨mid, s, rest, e, hm, by simpa using List.find?_some hr, h.symm⟩)
    | none =>
      rw [hr] at h
      cases hl : o.lefts.find? (·.associable) with
      | some s =>
        rw [hl] at h
        obtain ⟨mid, rest, e, hm⟩ := hsp hl
        exact .inr (.inr ⟨mid, s, rest, e, hm, by simpa using List.find?_some hl, h.symm⟩)
      | none =>
        rw [hl] at h
        refine .inl ⟨h.symm, ?_⟩
        intro s hs
        rw [List.find?_eq_none] at hl hr
        rcases List.mem_append.1 hs with hs | hs
        · simpa using hl s hs
        · simpa using hr s hs
  cases hl : o.lefts.find? (·.associable) with
  | none => exact hfar (by simp [Occ.owner, hl])
  | some l =>
    have hpost : o.owner = .post l.id → Next o := by
      intro h
      obtain ⟨mid, rest, e, hm⟩ := hsp hl
      exact .inr (.inr ⟨mid, l, rest, e, hm, by simpa using List.find?_some hl, h⟩)
    cases hr : o.rights.find? (fun s => !s.extra) with
    | none => exact hpost (by simp [Occ.owner, hl, hr])
    | some s =>
      by_cases hp : s.kind = "," ∨ s.kind = ";"
      · refine .inr (.inl ?_)
        obtain ⟨mid, rest, e, hm⟩ := hsp hr
        refine ⟨mid, s, rest, e, ?_, punct_associable (by simpa using List.find?_some hr) ((isPunct_iff _).2 hp),
          by simp [Occ.owner, hl, hr, hp]⟩
        intro m hmm
        have : m.extra = true := by simpa using hm m hmm
        simp [Node.associable, this]
      · by_cases hq : o.node.endRow = l.endRow
        · exact hpost (by simp [Occ.owner, hl, hr, hp, hq])
        · exact hfar (by simp [Occ.owner, hl, hr, hp, hq])

mutual
/-- Children of code nodes no comment can be attached to are leaves. -/
theorem closed_kids : ∀ (n : Node), n.Closed → ∀ m ∈ n.codeNodes, ∀ c ∈ m.children, c.associable = false → c.children = []
  | .mk id kind named extra err field sr er sb eb text children, hc, m, hm, c, hcm, ha => by
    have hc : kidsClosed children := by simpa [Node.Closed] using hc
    rw [Node.codeNodes] at hm
    rcases List.mem_cons.1 hm with rfl | hm
    · have key : ∀ ns : List Node, kidsClosed ns → ∀ c ∈ ns, c.associable = false → c.children = [] := by
        intro ns
        induction ns with
        | nil => intro _ c h; cases h
        | cons d r ih =>
          intro hcl c hcm ha
          rw [kidsClosed] at hcl
          rcases List.mem_cons.1 hcm with rfl | hcm
          · exact hcl.1 ha
          · exact ih hcl.2.2 c hcm ha
      exact key children hc c hcm ha
    · exact closed_kidss children hc m hm c hcm ha
theorem closed_kidss : ∀ (ns : List Node), kidsClosed ns → ∀ m ∈ kidsCode ns, ∀ c ∈ m.children, c.associable = false → c.children = []
  | [], _, m, hm, _, _, _ => by cases hm
  | n :: ns, hc, m, hm, c, hcm, ha => by
    rw [kidsClosed] at hc
    rw [kidsCode] at hm
    rcases List.mem_append.1 hm with hm | hm
    · split at hm
      · exact closed_kids n hc.2.1 m hm c hcm ha
      · cases hm
    · exact closed_kidss ns hc.2.2 m hm c hcm ha
end

theorem kidsExtras_mem (pid : Nat) (c : Node) (hc : c.extra = true) (B : List Node) : ∀ (A L : List Node),
    ⟨pid, c, A.reverse ++ L, B⟩ ∈ kidsExtras pid L (A ++ c :: B)
  | [], L => by rw [List.nil_append, kidsExtras, if_pos hc]; simp
  | a :: A, L => by
    rw [List.cons_append, kidsExtras]
    refine List.mem_append_right _ ?_
    have := kidsExtras_mem pid c hc B A (a :: L)
    simpa using this

mutual
theorem extras_code : ∀ (n P : Node), P ∈ n.codeNodes → ∀ o ∈ P.extras, o ∈ n.extras
  | .mk id kind named extra err field sr er sb eb text children, P, hP, o, ho => by
    rw [Node.codeNodes] at hP
    rcases List.mem_cons.1 hP with rfl | hP
    · exact ho
    · rw [Node.extras]
      exact kids_extras_code id children [] P hP o ho
theorem kids_extras_code (pid : Nat) : ∀ (ns L : List Node) (P : Node), P ∈ kidsCode ns → ∀ o ∈ P.extras, o ∈ kidsExtras pid L ns
  | [], _, _, hP, _, _ => by cases hP
  | n :: ns, L, P, hP, o, ho => by
    rw [kidsCode] at hP
    rw [kidsExtras]
    rcases List.mem_append.1 hP with hP | hP
    · refine List.mem_append_left _ (List.mem_append_right _ ?_)
      split at hP
      · exact extras_code n P hP o ho
      · cases hP
    · exact List.mem_append_right _ (kids_extras_code pid ns (n :: L) P hP o ho)
end

theorem inj_of_nodup {α β : Type} (f : α → β) : ∀ {l : List α}, (l.map f).Nodup → ∀ {a b : α}, a ∈ l → b ∈ l → f a = f b → a = b
  | [], _, _, _, ha, _, _ => by cases ha
  | x :: l, h, a, b, ha, hb, e => by
    rw [List.map_cons, List.nodup_cons] at h
    rcases List.mem_cons.1 ha with e1 | ha'
    · rcases List.mem_cons.1 hb with e2 | hb'
      · rw [e1, e2]
      · exact absurd (List.mem_map.2 ⟨b, hb', by rw [← e, e1]⟩) h.1
    · rcases List.mem_cons.1 hb with e2 | hb'
      · exact absurd (List.mem_map.2 ⟨a, ha', by rw [e, e2]⟩) h.1
      · exact inj_of_nodup f h.2 ha' hb' e

/-- Where a comment of the content is: at its owner, which is next to it. -/
theorem kept_at {root : Node} {cm : CMap} (hp : Parsed root) (g : Good root cm) {e : (Hold × Option Nat) × Comment}
    (he : e ∈ spotsW w 0 (cont cm root)) {x y : List (Sum Bool Nat)} (hs : stream root = x ++ .inr e.2.id :: y) :
    ∃ P p q lefts c rights, (P, p, q) ∈ places w 0 root ∧ P ∈ root.codeNodes ∧ P.children = lefts.reverse ++ c :: rights ∧ c.extra = true ∧
      (⟨P.id, c, lefts, rights⟩ : Occ) ∈ root.extras ∧ Occ.comment ⟨P.id, c, lefts, rights⟩ = e.2 ∧
      cnt w (flagsOf x) = p + namesL w lefts ∧
      ((Occ.owner ⟨P.id, c, lefts, rights⟩ = .dangling P.id ∧ (∀ s ∈ lefts ++ rights, s.associable = false) ∧
          e.1 = Hold.spot .loose p) ∨
        (∃ mid s rest, rights = mid ++ s :: rest ∧ (∀ m ∈ mid, m.associable = false) ∧ s.associable = true ∧
          Occ.owner ⟨P.id, c, lefts, rights⟩ = .pre s.id ∧
          (s, p + namesL w (lefts.reverse ++ c :: mid), p + namesL w (lefts.reverse ++ c :: mid) + names w s) ∈ places w 0 root ∧
          e.1 = (preHold s.kind).spot (p + namesL w (lefts.reverse ++ c :: mid))) ∨
        (∃ mid s rest, lefts = mid ++ s :: rest ∧ (∀ m ∈ mid, m.associable = false) ∧ s.associable = true ∧
          Occ.owner ⟨P.id, c, lefts, rights⟩ = .post s.id ∧
          (s, p + namesL w rest.reverse, p + namesL w rest.reverse + names w s) ∈ places w 0 root ∧
          e.1 = (postHold s.kind).spot (p + namesL w rest.reverse + names w s))) := by
  have ha : root.associable = true := by simp [Node.associable, g.named, g.noExtra]
  obtain ⟨-, M, p, q, hM, hk⟩ := spots_cont cm root 0 g.closed (by simp [ha]) e he
  obtain ⟨P, p', q', lefts, c, rights, hP, hch, hex, hid, hpos⟩ := stream_found (w := w) root 0 g.closed g.noExtra hs
  rw [Nat.zero_add] at hpos
  -- the slot
  obtain ⟨sl, hsl, hslot⟩ : ∃ sl, e.2 ∈ cm.slot sl ∧ ((sl = .pre M.id ∧ e.1 = (preHold M.kind).spot p) ∨
      (sl = .dangling M.id ∧ e.1 = Hold.spot .loose p) ∨ (sl = .post M.id ∧ e.1 = (postHold M.kind).spot q)) := by
    rcases hk with ⟨h1, h2⟩ | ⟨h1, h2⟩ | ⟨h1, h2⟩
    · exact ⟨_, h1, .inl ⟨rfl, h2⟩⟩
    · exact ⟨_, h1, .inr (.inl ⟨rfl, h2⟩)⟩
    · exact ⟨_, h1, .inr (.inr ⟨rfl, h2⟩)⟩
  have hown := (C14_owner root g.closed g.named g.noExtra cm g.map sl).mem_iff.1 hsl
  simp only [List.mem_map, List.mem_filter, beq_iff_eq] at hown
  obtain ⟨o, ⟨ho, how⟩, hoc⟩ := hown
  -- the occurrence is the one found in the stream
  have hPcode : P ∈ root.codeNodes := by
    rw [← places_code (w := w) root 0]
    exact List.mem_map.2 ⟨_, hP, rfl⟩
  have hmem : ⟨P.id, c, lefts, rights⟩ ∈ root.extras := by
    refine extras_code root P hPcode _ ?_
    rw [Node.extras_eq, hch]
    have := kidsExtras_mem P.id c hex rights lefts.reverse []
    simpa using this
  have hoc' : o = ⟨P.id, c, lefts, rights⟩ := by
    refine inj_of_nodup (fun o => o.node.id) hp.commentIds ho hmem ?_
    show o.node.id = c.id
    rw [hid, ← hoc]
    rfl
  subst hoc'
  refine ⟨P, p', q', lefts, c, rights, hP, hPcode, hch, hex, ho, hoc, hpos, ?_⟩
  rcases owner_next ⟨P.id, c, lefts, rights⟩ with ⟨h1, h2⟩ | ⟨mid, s, rest, h1, h2, h3, h4⟩ | ⟨mid, s, rest, h1, h2, h3, h4⟩
  · -- inside the parent
    refine .inl ⟨h1, h2, ?_⟩
    rcases hslot with ⟨e1, e2⟩ | ⟨e1, e2⟩ | ⟨e1, e2⟩
    · rw [how, e1] at h1; cases h1
    · have hMP : (M, p, q) = (P, p', q') := by
        refine places_inj g.nodup hM hP ?_
        rw [how, e1] at h1
        exact Slot.dangling.inj h1
      cases hMP
      exact e2
    · rw [how, e1] at h1; cases h1
  · -- before a node
    simp only at h1
    refine .inr (.inl ⟨mid, s, rest, h1, h2, h3, h4, ?_⟩)
    have hk := places_kid root 0 hP (A := lefts.reverse ++ c :: mid) (s := s) (B := rest) (by rw [hch, h1]; simp) h3
    refine ⟨hk, ?_⟩
    rcases hslot with ⟨e1, e2⟩ | ⟨e1, e2⟩ | ⟨e1, e2⟩
    · have hMs := places_inj g.nodup hM hk (by rw [how, e1] at h4; exact Slot.pre.inj h4)
      obtain ⟨rfl, rfl, rfl⟩ : M = s ∧ p = _ ∧ q = _ := ⟨congrArg (·.1) hMs, congrArg (·.2.1) hMs, congrArg (·.2.2) hMs⟩
      exact e2
    · rw [how, e1] at h4; cases h4
    · rw [how, e1] at h4; cases h4
  · -- after a node
    simp only at h1
    refine .inr (.inr ⟨mid, s, rest, h1, h2, h3, h4, ?_⟩)
    have hk := places_kid root 0 hP (A := rest.reverse) (s := s) (B := mid.reverse ++ c :: rights) (by rw [hch, h1]; simp) h3
    refine ⟨hk, ?_⟩
    rcases hslot with ⟨e1, e2⟩ | ⟨e1, e2⟩ | ⟨e1, e2⟩
    · rw [how, e1] at h4; cases h4
    · rw [how, e1] at h4; cases h4
    · have hMs := places_inj g.nodup hM hk (by rw [how, e1] at h4; exact Slot.post.inj h4)
      obtain ⟨rfl, rfl, rfl⟩ : M = s ∧ p = _ ∧ q = _ := ⟨congrArg (·.1) hMs, congrArg (·.2.1) hMs, congrArg (·.2.2) hMs⟩
      exact e2

/-- A comment of the content that keeps its place has the same number of characters of names and literals before it as in
the source. -/
theorem kept_place {root : Node} {cm : CMap} (hp : Parsed root) (g : Good root cm) {e : (Hold × Option Nat) × Comment}
    (he : e ∈ spots 0 (cont cm root)) {x y : List (Sum Bool Nat)} (hs : stream root = x ++ .inr e.2.id :: y) :
    ∃ o ∈ root.extras, o.comment = e.2 ∧ ((e.1.1 = .wild ∧ afterFields o = true) ∨ e.1.2 = some (nameCount (flagsOf x))) := by
  rw [← spotsW_id] at he
  obtain ⟨P, p, q, lefts, c, rights, hP, hPcode, hch, hex, ho, hoc, hpos, hcase⟩ := kept_at hp g he hs
  refine ⟨_, ho, hoc, ?_⟩
  have hpos : nameCount (flagsOf x) = p + namesL id lefts := hpos
  have hleaf := closed_kids root g.closed P hPcode
  rw [hch] at hleaf
  have zero : ∀ {l : List Node}, (∀ m ∈ l, m ∈ lefts.reverse ++ c :: rights) → (∀ m ∈ l, m.associable = false) → namesL id l = 0 := by
    intro l h1 h2
    exact namesL_zero (fun m hm => names_plain rfl (h2 m hm) (hleaf m (h1 m hm) (h2 m hm)))
  have hc0 : names id c = 0 := names_extra hex
  rcases hcase with ⟨_, h2, e2⟩ | ⟨mid, s, rest, h1, h2, h3, _, _, e2⟩ | ⟨mid, s, rest, h1, h2, h3, _, _, e2⟩
  · right
    have : namesL id lefts = 0 := zero (by intro m hm; simp [hm]) (fun m hm => h2 m (by simp [hm]))
    rw [e2, hpos, this]
    rfl
  · right
    have hm : namesL id mid = 0 := zero (by intro m hm; simp [h1, hm]) h2
    rw [e2, hpos, namesL_append, namesL_cons, namesL_reverse, hm, hc0]
    have : preHold s.kind ≠ .wild := by unfold preHold; split <;> simp
    simp [Hold.spot, this]
  · have hm : namesL id mid = 0 := zero (by intro m hm; simp [h1, hm]) h2
    by_cases hw : postHold s.kind = .wild
    · left
      refine ⟨by rw [e2]; exact hw, ?_⟩
      have hk : s.kind = "selected_fields" := by
        unfold postHold at hw
        split at hw
        · rename_i h; simpa using h
        · split at hw <;> cases hw
      have hf : lefts.find? (·.associable) = some s := by
        rw [h1, List.find?_append]
        have : mid.find? (·.associable) = none := by
          rw [List.find?_eq_none]; intro m hm; simp [h2 m hm]
        rw [this]
        simp [h3]
      simp [afterFields, hf, hk]
    · right
      rw [e2, hpos, namesL_reverse, h1, namesL_append, namesL_cons, hm]
      simp only [Hold.spot, hw, if_false]
      congr 1
      omega

/-- A comment of the content that keeps its exact place has the same code before it as its owner has before its begin or up to
its end. -/
theorem kept_exact {root : Node} {cm : CMap} (hp : Parsed root) (g : Good root cm) {n : Nat} {cc : Comment}
    (he : ((Hold.firm, some n), cc) ∈ spotsW (fun _ => true) 0 (cont cm root)) {x y : List (Sum Bool Nat)}
    (hs : stream root = x ++ .inr cc.id :: y) :
    ∃ o ∈ root.extras, o.comment = cc ∧
      ((∃ mid s rest, o.rights = mid ++ s :: rest ∧ (∀ m ∈ mid, m.associable = false) ∧ s.associable = true ∧ o.owner = .pre s.id ∧
          (∃ q, (s, n, q) ∈ places (fun _ => true) 0 root) ∧ n = (flagsOf x).length + namesL (fun _ => true) mid) ∨
        (∃ mid s rest, o.lefts = mid ++ s :: rest ∧ (∀ m ∈ mid, m.associable = false) ∧ s.associable = true ∧ o.owner = .post s.id ∧
          (∃ p, (s, p, n) ∈ places (fun _ => true) 0 root) ∧ (flagsOf x).length = n + namesL (fun _ => true) mid)) := by
  obtain ⟨P, p, q, lefts, c, rights, hP, hPcode, hch, hex, ho, hoc, hpos, hcase⟩ := kept_at hp g he hs
  refine ⟨_, ho, hoc, ?_⟩
  have hpos : (flagsOf x).length = p + namesL (fun _ => true) lefts := by
    rw [← hpos, cnt, List.countP_true]
  rcases hcase with ⟨_, h2, e2⟩ | ⟨mid, s, rest, h1, h2, h3, h4, h5, e2⟩ | ⟨mid, s, rest, h1, h2, h3, h4, h5, e2⟩
  · cases e2
  · left
    refine ⟨mid, s, rest, h1, h2, h3, h4, ?_⟩
    have e1 : preHold s.kind = .firm := (congrArg Prod.fst e2).symm
    have en : n = p + namesL (fun _ => true) (lefts.reverse ++ c :: mid) := by
      have := congrArg Prod.snd e2
      rw [e1] at this
      exact Option.some.inj this
    refine ⟨⟨_, en ▸ h5⟩, ?_⟩
    rw [en, hpos, namesL_append, namesL_cons, namesL_reverse, names_extra hex]
    omega
  · right
    refine ⟨mid, s, rest, h1, h2, h3, h4, ?_⟩
    have e1 : postHold s.kind = .firm := (congrArg Prod.fst e2).symm
    have en : n = p + namesL (fun _ => true) rest.reverse + names (fun _ => true) s := by
      have := congrArg Prod.snd e2
      rw [e1] at this
      exact Option.some.inj this
    refine ⟨⟨_, en ▸ h5⟩, ?_⟩
    rw [en, hpos, namesL_reverse, h1, namesL_append, namesL_cons]
    omega

end Afmt.Gram
