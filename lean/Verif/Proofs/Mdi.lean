import Verif.Proofs.ForestPredict

/-!
# The recursion of `calculate_mdi`

It visits every node of a tree exactly once, so it adds up all recorded reductions; the order of the additions does not matter.
-/

namespace FF

open Spec

set_option linter.unusedSectionVars false

variable {K : Type} [Field K] [LinearOrder K] [IsStrictOrderedRing K] [FloorRing K] [NpFun K] {G : Type}

/-! ### Sums of special values -/

theorem XF.add_comm' (a b : XF K) : a.add b = b.add a := by
  cases a <;> cases b <;> simp [XF.add, add_comm]

theorem XF.add_assoc' (a b c : XF K) : (a.add b).add c = a.add (b.add c) := by
  cases a <;> cases b <;> cases c <;> simp [XF.add, add_assoc]

theorem XF.zero_add' (a : XF K) : (XF.fin 0).add a = a := by
  cases a <;> simp [XF.add]

theorem XF.foldl_add (l : List (XF K)) (x : XF K) : l.foldl XF.add x = x.add (XF.sum l) := by
  unfold XF.sum
  induction l generalizing x with
  | nil => rw [List.foldl_nil, List.foldl_nil, XF.add_comm', XF.zero_add']
  | cons a l ih =>
    rw [List.foldl_cons, List.foldl_cons, ih, ih ((XF.fin 0).add a), XF.zero_add', XF.add_assoc']

theorem XF.sum_append (l1 l2 : List (XF K)) : XF.sum (l1 ++ l2) = (XF.sum l1).add (XF.sum l2) := by
  rw [← XF.foldl_add]
  unfold XF.sum
  rw [List.foldl_append]

theorem XF.sum_perm {l1 l2 : List (XF K)} (h : l1.Perm l2) : XF.sum l1 = XF.sum l2 := by
  induction h with
  | nil => rfl
  | cons a _ ih =>
    rw [← List.singleton_append, XF.sum_append, ih, ← XF.sum_append, List.singleton_append]
  | swap a b l =>
    rw [show b :: a :: l = [b] ++ ([a] ++ l) from rfl, show a :: b :: l = [a] ++ ([b] ++ l) from rfl]
    rw [XF.sum_append, XF.sum_append, XF.sum_append, XF.sum_append, ← XF.add_assoc', ← XF.add_assoc', XF.add_comm' (XF.sum [b])]
  | trans _ _ ih1 ih2 => rw [ih1, ih2]

theorem XF.sum_neg {l : List (XF K)} (h : ∀ a ∈ l, a.lt (.fin 0) = true) : XF.sum l = .fin 0 ∨ (XF.sum l).lt (.fin 0) = true := by
  induction l with
  | nil => exact Or.inl rfl
  | cons a l ih =>
    right
    have h1 := h a List.mem_cons_self
    have h2 := ih (fun b hb => h b (List.mem_cons_of_mem _ hb))
    rw [show a :: l = [a] ++ l from rfl, XF.sum_append, show XF.sum [a] = a from XF.zero_add' a]
    generalize XF.sum l = s at h2
    cases a with
    | nan => cases h1
    | pinf => cases h1
    | ninf =>
      rcases h2 with h2 | h2
      · rw [h2]; rfl
      · cases s <;> first | rfl | cases h2
    | fin x =>
      rcases h2 with h2 | h2
      · rw [h2, XF.add_comm', XF.zero_add']; exact h1
      · cases s with
        | nan => cases h2
        | pinf => cases h2
        | ninf => rfl
        | fin y =>
          simp only [XF.lt, XF.add, decide_eq_true_eq] at *
          linarith

/-! ### What the recursion adds -/

/-- The reduction a node adds to feature `j`. -/
def redAt (j : Nat) (nd : Node K) : Option (XF K) := if nd.splitFeature = some j then nd.splitReduction else none

/-- `arr'` is `arr` after adding the reductions of the nodes `l`. -/
def AddAll (l : List (Node K)) (arr arr' : List (XF K)) : Prop :=
  arr'.length = arr.length ∧ ∀ (j : Nat) (x : XF K), arr[j]? = some x → arr'[j]? = some ((l.filterMap (redAt j)).foldl XF.add x)

theorem AddAll.nil (arr : List (XF K)) : AddAll [] arr arr := ⟨rfl, fun _ _ h => h⟩

theorem AddAll.append {l1 l2 : List (Node K)} {a b c : List (XF K)} (h1 : AddAll l1 a b) (h2 : AddAll l2 b c) :
    AddAll (l1 ++ l2) a c := by
  refine ⟨h2.1.trans h1.1, fun j x hx => ?_⟩
  rw [List.filterMap_append, List.foldl_append]
  exact h2.2 j _ (h1.2 j x hx)

theorem mdiAdd_ok {nd : Node K} {arr arr' : List (XF K)} (h : mdiAdd nd arr = .ok arr') : AddAll [nd] arr arr' := by
  unfold mdiAdd at h
  cases hr : nd.splitReduction with
  | none =>
    rw [hr] at h
    cases h
    refine ⟨rfl, fun j x hx => ?_⟩
    have : redAt j nd = none := by unfold redAt; rw [hr, ite_self]
    simp [this, hx]
  | some red =>
    rw [hr] at h
    simp only [] at h
    cases hf : nd.splitFeature with
    | none => rw [hf] at h; cases h
    | some k =>
      rw [hf] at h
      simp only [] at h
      split_ifs at h with hk
      cases h
      refine ⟨by simp, fun j x hx => ?_⟩
      rw [List.getElem?_modify, hx]
      by_cases hjk : k = j
      · subst hjk
        have : redAt k nd = some red := by unfold redAt; rw [hf, if_pos rfl, hr]
        simp [this]
      · have : redAt j nd = none := by unfold redAt; rw [hf, if_neg (by simpa using hjk)]
        simp [this, hjk]

/-- The nodes below `id`, in the order of the recursion. -/
def pre (nodes : List (Node K)) : Nat → Nat → List Nat
  | 0, _ => []
  | fuel + 1, id =>
    match nodes[id]? with
    | none => []
    | some nd =>
      match nd.left, nd.right with
      | some l, some r => id :: (pre nodes fuel l ++ pre nodes fuel r)
      | _, _ => [id]

theorem mdiHelper_ok {nodes : List (Node K)} {fuel id : Nat} {arr arr' : List (XF K)} (h : mdiHelper nodes fuel id arr = .ok arr') :
    AddAll ((pre nodes fuel id).filterMap (fun i => nodes[i]?)) arr arr' := by
  induction fuel generalizing id arr arr' with
  | zero => cases h
  | succ fuel ih =>
    unfold mdiHelper at h
    unfold pre
    cases hn : nodes[id]? with
    | none => rw [hn] at h; cases h
    | some nd =>
      rw [hn] at h
      simp only [] at h ⊢
      cases ha : mdiAdd nd arr with
      | error e => rw [ha] at h; cases h
      | ok arr1 =>
        rw [ha] at h
        simp only [] at h
        have h1 := mdiAdd_ok ha
        cases hl : nd.left with
        | none =>
          rw [hl] at h
          cases h
          simp only [List.filterMap_cons, hn, List.filterMap_nil]
          exact h1
        | some l =>
          rw [hl] at h
          simp only [] at h
          cases hb : mdiHelper nodes fuel l arr1 with
          | error e => rw [hb] at h; cases h
          | ok arr2 =>
            rw [hb] at h
            simp only [] at h
            cases hr : nd.right with
            | none => rw [hr] at h; cases h
            | some r =>
              rw [hr] at h
              simp only [] at h ⊢
              rw [List.filterMap_cons, hn]
              simp only []
              rw [List.filterMap_append]
              exact h1.append ((ih hb).append (ih h))

/-- The links of the heap of a tree. -/
structure Linked (nodes : List (Node K)) : Prop where
  links : ∀ (id : Nat) (nd : Node K), nodes[id]? = some nd → (nd.left = none ∧ nd.right = none) ∨
    ∃ l r, nd.left = some l ∧ nd.right = some r ∧ id < l ∧ id < r ∧ l ≠ r ∧ l < nodes.length ∧ r < nodes.length
  parents : ∀ id, 0 < id → id < nodes.length → ∃ (p : Nat) (nd : Node K), p < id ∧ nodes[p]? = some nd ∧
    (nd.left = some id ∨ nd.right = some id)
  uniq : ∀ (p q : Nat) (np nq : Node K) (c : Nat), nodes[p]? = some np → nodes[q]? = some nq → (np.left = some c ∨ np.right = some c) →
    (nq.left = some c ∨ nq.right = some c) → p = q

theorem TShape.linked {data : List (List K)} {rows : List Nat} {t : Tree K G} (h : TShape data rows t) : Linked t.nodes := by
  refine ⟨fun id nd hn => ?_, h.parents, h.uniq⟩
  rcases h.links id nd hn with h1 | ⟨l, r, nl, nr, h1, h2, h3, h4, h5, h6, h7, _⟩
  · exact Or.inl h1
  · exact Or.inr ⟨l, r, h1, h2, h3, h4, h5, nodeAt_lt h6, nodeAt_lt h7⟩

theorem pre_leaf {nodes : List (Node K)} {fuel id : Nat} {nd : Node K} (hn : nodes[id]? = some nd) (hl : nd.left = none) :
    pre nodes (fuel + 1) id = [id] := by
  unfold pre
  rw [hn]
  simp only [hl]

theorem pre_split {nodes : List (Node K)} {fuel id l r : Nat} {nd : Node K} (hn : nodes[id]? = some nd) (hl : nd.left = some l)
    (hr : nd.right = some r) : pre nodes (fuel + 1) id = id :: (pre nodes fuel l ++ pre nodes fuel r) := by
  rw [pre, hn]
  simp only [hl, hr]

theorem Linked.pre_ge {nodes : List (Node K)} (h : Linked nodes) (fuel id : Nat) :
    ∀ x ∈ pre nodes fuel id, id ≤ x ∧ x < nodes.length := by
  induction fuel generalizing id with
  | zero => intro x hx; simp [pre] at hx
  | succ fuel ih =>
    intro x hx
    cases hn : nodes[id]? with
    | none => rw [pre, hn] at hx; simp at hx
    | some nd =>
      have hlt := (List.getElem?_eq_some_iff.1 hn).1
      rcases h.links id nd hn with ⟨h1, _⟩ | ⟨l, r, h1, h2, h3, h4, _⟩
      · rw [pre_leaf hn h1] at hx
        simp at hx
        omega
      · rw [pre_split hn h1 h2] at hx
        simp only [List.mem_cons, List.mem_append] at hx
        rcases hx with rfl | hx | hx
        · omega
        · have := ih l x hx; omega
        · have := ih r x hx; omega

theorem pre_self {nodes : List (Node K)} {fuel id : Nat} (h1 : id < nodes.length) (h2 : nodes.length - id ≤ fuel) :
    id ∈ pre nodes fuel id := by
  cases fuel with
  | zero => omega
  | succ fuel =>
    rw [pre, List.getElem?_eq_getElem h1]
    simp only []
    split <;> simp

theorem Linked.pre_closed {nodes : List (Node K)} (h : Linked nodes) (fuel id : Nat) (hf : nodes.length - id ≤ fuel) (x c : Nat)
    (nd : Node K) (hx : x ∈ pre nodes fuel id) (hn : nodes[x]? = some nd) (hc : nd.left = some c ∨ nd.right = some c) :
    c ∈ pre nodes fuel id := by
  induction fuel generalizing id with
  | zero => simp [pre] at hx
  | succ fuel ih =>
    have hid : id < nodes.length := by have := h.pre_ge _ _ x hx; omega
    have hn' := List.getElem?_eq_getElem hid
    rcases h.links id _ hn' with ⟨h1, h2⟩ | ⟨l, r, h1, h2, h3, h4, _, h6, h7⟩
    · rw [pre_leaf hn' h1] at hx
      simp only [List.mem_singleton] at hx
      subst hx
      rw [hn] at hn'
      obtain rfl := Option.some.inj hn'
      rw [h1, h2] at hc
      simp at hc
    · rw [pre_split hn' h1 h2] at hx ⊢
      simp only [List.mem_cons, List.mem_append] at hx ⊢
      rcases hx with rfl | hx | hx
      · rw [hn] at hn'
        obtain rfl := Option.some.inj hn'
        rw [h1, h2] at hc
        rcases hc with hc | hc
        · obtain rfl := Option.some.inj hc
          exact Or.inr (Or.inl (pre_self h6 (by omega)))
        · obtain rfl := Option.some.inj hc
          exact Or.inr (Or.inr (pre_self h7 (by omega)))
      · exact Or.inr (Or.inl (ih l (by omega) hx))
      · exact Or.inr (Or.inr (ih r (by omega) hx))

theorem Linked.pre_parent {nodes : List (Node K)} (h : Linked nodes) (fuel id : Nat) (hf : nodes.length - id ≤ fuel) (x : Nat)
    (hx : x ∈ pre nodes fuel id) (hne : x ≠ id) :
    ∃ (p : Nat) (nd : Node K), p ∈ pre nodes fuel id ∧ nodes[p]? = some nd ∧ (nd.left = some x ∨ nd.right = some x) := by
  induction fuel generalizing id with
  | zero => simp [pre] at hx
  | succ fuel ih =>
    have hid : id < nodes.length := by have := h.pre_ge _ _ x hx; omega
    have hn' := List.getElem?_eq_getElem hid
    rcases h.links id _ hn' with ⟨h1, h2⟩ | ⟨l, r, h1, h2, h3, h4, _, h6, h7⟩
    · rw [pre_leaf hn' h1] at hx
      simp only [List.mem_singleton] at hx
      exact absurd hx hne
    · rw [pre_split hn' h1 h2] at hx ⊢
      simp only [List.mem_cons, List.mem_append] at hx ⊢
      rcases hx with rfl | hx | hx
      · exact absurd rfl hne
      · by_cases hl : x = l
        · subst hl
          exact ⟨id, _, Or.inl rfl, hn', Or.inl h1⟩
        · obtain ⟨p, nd, a, b, c⟩ := ih l (by omega) hx hl
          exact ⟨p, nd, Or.inr (Or.inl a), b, c⟩
      · by_cases hl : x = r
        · subst hl
          exact ⟨id, _, Or.inl rfl, hn', Or.inr h2⟩
        · obtain ⟨p, nd, a, b, c⟩ := ih r (by omega) hx hl
          exact ⟨p, nd, Or.inr (Or.inr a), b, c⟩

theorem Linked.pre_disjoint {nodes : List (Node K)} (h : Linked nodes) {fuel id l r : Nat} {nd : Node K} (hn : nodes[id]? = some nd)
    (hl : nd.left = some l) (hr : nd.right = some r) (hne : l ≠ r) (h3 : id < l) (h4 : id < r) (hf : nodes.length - id ≤ fuel + 1) :
    ∀ x, x ∈ pre nodes fuel l → x ∈ pre nodes fuel r → False := by
  intro x
  induction x using Nat.strong_induction_on with
  | _ x ih =>
    intro h1 h2
    by_cases e1 : x = l
    · subst e1
      obtain ⟨p, np, a, b, c⟩ := h.pre_parent fuel r (by omega) x h2 hne
      have := h.uniq p id np nd x b hn c (Or.inl hl)
      have := (h.pre_ge _ _ p a).1
      omega
    by_cases e2 : x = r
    · subst e2
      obtain ⟨p, np, a, b, c⟩ := h.pre_parent fuel l (by omega) x h1 e1
      have := h.uniq p id np nd x b hn c (Or.inr hr)
      have := (h.pre_ge _ _ p a).1
      omega
    obtain ⟨p, np, a, b, c⟩ := h.pre_parent fuel l (by omega) x h1 e1
    obtain ⟨q, nq, a', b', c'⟩ := h.pre_parent fuel r (by omega) x h2 e2
    obtain rfl := h.uniq p q np nq x b b' c c'
    refine ih p ?_ a a'
    rcases h.links p np b with ⟨e, e'⟩ | ⟨l', r', e, e', e3, e4, _⟩
    · rw [e, e'] at c
      simp at c
    · rw [e, e'] at c
      simp only [Option.some.injEq] at c
      omega

theorem Linked.pre_nodup {nodes : List (Node K)} (h : Linked nodes) (fuel id : Nat) (hf : nodes.length - id ≤ fuel) :
    (pre nodes fuel id).Nodup := by
  induction fuel generalizing id with
  | zero => simp [pre]
  | succ fuel ih =>
    cases hn : nodes[id]? with
    | none => rw [pre, hn]; simp
    | some nd =>
      rcases h.links id _ hn with ⟨h1, h2⟩ | ⟨l, r, h1, h2, h3, h4, h5, h6, h7⟩
      · rw [pre_leaf hn h1]
        simp
      · rw [pre_split hn h1 h2, List.nodup_cons, List.nodup_append]
        refine ⟨?_, ih l (by omega), ih r (by omega), ?_⟩
        · intro hx
          rcases List.mem_append.1 hx with hx | hx
          · have := h.pre_ge _ _ _ hx; omega
          · have := h.pre_ge _ _ _ hx; omega
        · rintro a ha b hb rfl
          exact h.pre_disjoint hn h1 h2 h5 h3 h4 hf a ha hb

theorem filterMap_range {α : Type} (l : List α) : (List.range l.length).filterMap (fun i => l[i]?) = l := by
  induction l using List.reverseRecOn with
  | nil => rfl
  | append_singleton l a ih =>
    rw [List.length_append, List.length_singleton, List.range_succ, List.filterMap_append]
    congr 1
    · conv_rhs => rw [← ih]
      apply List.filterMap_congr
      intro i hi
      rw [List.getElem?_append_left (List.mem_range.1 hi)]
    · simp

/-- The recursion visits every node exactly once. -/
theorem Linked.pre_perm {nodes : List (Node K)} (h : Linked nodes) :
    ((pre nodes nodes.length 0).filterMap (fun i => nodes[i]?)).Perm nodes := by
  have h1 : (pre nodes nodes.length 0).Perm (List.range nodes.length) := by
    rw [List.perm_ext_iff_of_nodup (h.pre_nodup _ _ (by omega)) List.nodup_range]
    intro x
    rw [List.mem_range]
    refine ⟨fun hx => (h.pre_ge _ _ x hx).2, ?_⟩
    induction x using Nat.strong_induction_on with
    | _ x ih =>
      intro hx
      rcases Nat.eq_zero_or_pos x with h0 | h0
      · subst h0
        exact pre_self hx (by omega)
      · obtain ⟨p, nd, a, b, c⟩ := h.parents x h0 hx
        exact h.pre_closed _ _ (by omega) p x nd (ih p a (by omega)) b c
  have h2 := h1.filterMap (fun i => nodes[i]?)
  rw [filterMap_range] at h2
  exact h2

/-- The recursion does not fail if every recorded feature is a column. -/
theorem Linked.mdiHelper_total {nodes : List (Node K)} (h : Linked nodes) (n : Nat)
    (hf : ∀ (id : Nat) (nd : Node K), nodes[id]? = some nd → nd.splitReduction ≠ none → ∃ j, nd.splitFeature = some j ∧ j < n)
    (fuel id : Nat) (hfuel : nodes.length - id ≤ fuel) (hid : id < nodes.length) (arr : List (XF K)) (ha : arr.length = n) :
    ∃ arr', mdiHelper nodes fuel id arr = .ok arr' := by
  induction fuel generalizing id arr with
  | zero => omega
  | succ fuel ih =>
    have hn := List.getElem?_eq_getElem hid
    generalize hnd : nodes[id] = nd at hn
    obtain ⟨arr1, h1⟩ : ∃ arr1, mdiAdd nd arr = .ok arr1 := by
      unfold mdiAdd
      cases hr : nd.splitReduction with
      | none => exact ⟨_, rfl⟩
      | some red =>
        obtain ⟨j, hj, hj'⟩ := hf id nd hn (by rw [hr]; simp)
        rw [hj]
        simp only []
        rw [if_pos (by omega)]
        exact ⟨_, rfl⟩
    have hl1 := (mdiAdd_ok h1).1
    unfold mdiHelper
    rw [hn]
    simp only []
    rw [h1]
    simp only []
    rcases h.links id nd hn with ⟨a1, _⟩ | ⟨l, r, a1, a2, a3, a4, _, a6, a7⟩
    · rw [a1]
      exact ⟨_, rfl⟩
    · rw [a1]
      simp only []
      obtain ⟨arr2, h2⟩ := ih l (by omega) a6 arr1 (by omega)
      rw [h2]
      simp only []
      rw [a2]
      simp only []
      exact ih r (by omega) a7 arr2 (by rw [(mdiHelper_ok h2).1]; omega)

/-! ### Caches do not matter -/

/-- What the recursion reads of a node. -/
def mdiKey (nd : Node K) : Option Nat × Option Nat × Option Nat × Option (XF K) :=
  (nd.left, nd.right, nd.splitFeature, nd.splitReduction)

theorem mdiHelper_congr {n1 n2 : List (Node K)} (h : n1.map mdiKey = n2.map mdiKey) (fuel id : Nat) (arr : List (XF K)) :
    mdiHelper n1 fuel id arr = mdiHelper n2 fuel id arr := by
  induction fuel generalizing id arr with
  | zero => rfl
  | succ fuel ih =>
    have hk : (n1[id]?).map mdiKey = (n2[id]?).map mdiKey := by rw [← List.getElem?_map, ← List.getElem?_map, h]
    unfold mdiHelper
    cases h1 : n1[id]? with
    | none =>
      rw [h1] at hk
      cases h2 : n2[id]? with
      | none => rfl
      | some b => rw [h2] at hk; cases hk
    | some a =>
      rw [h1] at hk
      cases h2 : n2[id]? with
      | none => rw [h2] at hk; cases hk
      | some b =>
        rw [h2] at hk
        simp only [Option.map_some, Option.some.injEq, mdiKey, Prod.mk.injEq] at hk
        obtain ⟨e1, e2, e3, e4⟩ := hk
        have e5 : mdiAdd a arr = mdiAdd b arr := by unfold mdiAdd; rw [e3, e4]
        simp only []
        rw [e5]
        simp only [e1, e2, ih]

theorem filterMap_congr_key {n1 n2 : List (Node K)} (h : n1.map mdiKey = n2.map mdiKey) (j : Nat) :
    n1.filterMap (redAt j) = n2.filterMap (redAt j) := by
  have : ∀ n : List (Node K), n.filterMap (redAt j) =
      (n.map mdiKey).filterMap (fun k => if k.2.2.1 = some j then k.2.2.2 else none) := by
    intro n
    rw [List.filterMap_map]
    rfl
  rw [this n1, this n2, h]

theorem CacheOf.key {t t' : Tree K G} (h : CacheOf t t') : t'.nodes.map mdiKey = t.nodes.map mdiKey := by
  apply List.ext_getElem?
  intro i
  rw [List.getElem?_map, List.getElem?_map]
  by_cases hi : i < t.nodes.length
  · have h1 := List.getElem?_eq_getElem hi
    have h2 := List.getElem?_eq_getElem (show i < t'.nodes.length by rw [h.len]; exact hi)
    rw [h1, h2, Option.map_some, Option.map_some, (h.nodes i _ _ h1 h2).eq]
    rfl
  · rw [List.getElem?_eq_none (by rw [h.len]; omega), List.getElem?_eq_none (by omega)]

/-! ### All trees -/

theorem mdiLoop_congr {ts ts' : List (Tree K G)} (h : List.Forall₂ (fun a b => a.nodes.map mdiKey = b.nodes.map mdiKey) ts ts')
    (arr : List (XF K)) : mdiLoop ts arr = mdiLoop ts' arr := by
  induction h generalizing arr with
  | nil => rfl
  | cons hk _ ih =>
    unfold mdiLoop
    have hl : ∀ {n1 n2 : List (Node K)}, n1.map mdiKey = n2.map mdiKey → n1.length = n2.length := by
      intro n1 n2 h
      have := congrArg List.length h
      simpa using this
    rw [hl hk, mdiHelper_congr hk]
    split
    · rfl
    · exact ih _

theorem mdiLoop_ok {ts : List (Tree K G)} {arr arr' : List (XF K)} (hl : ∀ t ∈ ts, Linked t.nodes) (h : mdiLoop ts arr = .ok arr') :
    arr'.length = arr.length ∧ ∀ (j : Nat) (x : XF K), arr[j]? = some x →
      arr'[j]? = some (x.add (XF.sum (ts.flatMap (fun (t : Tree K G) => t.nodes.filterMap (redAt j))))) := by
  induction ts generalizing arr with
  | nil =>
    cases h
    refine ⟨rfl, fun j x hx => ?_⟩
    rw [hx, List.flatMap_nil, XF.add_comm', show XF.sum ([] : List (XF K)) = .fin 0 from rfl, XF.zero_add']
  | cons t ts ih =>
    unfold mdiLoop at h
    cases h1 : mdiHelper t.nodes t.nodes.length 0 arr with
    | error e => rw [h1] at h; cases h
    | ok arr1 =>
      rw [h1] at h
      simp only [] at h
      obtain ⟨a1, a2⟩ := mdiHelper_ok h1
      obtain ⟨b1, b2⟩ := ih (fun t ht => hl t (List.mem_cons_of_mem _ ht)) h
      refine ⟨b1.trans a1, fun j x hx => ?_⟩
      rw [b2 j _ (a2 j x hx), XF.foldl_add, List.flatMap_cons, XF.sum_append, XF.add_assoc']
      congr 3
      exact XF.sum_perm ((hl t List.mem_cons_self).pre_perm.filterMap _)

theorem mdiLoop_total {ts : List (Tree K G)} {arr : List (XF K)} (hl : ∀ t ∈ ts, Linked t.nodes ∧ t.nodes ≠ [])
    (hf : ∀ t ∈ ts, ∀ (id : Nat) (nd : Node K), t.nodes[id]? = some nd → nd.splitReduction ≠ none →
      ∃ j, nd.splitFeature = some j ∧ j < arr.length) : ∃ arr', mdiLoop ts arr = .ok arr' := by
  induction ts generalizing arr with
  | nil => exact ⟨_, rfl⟩
  | cons t ts ih =>
    obtain ⟨arr1, h1⟩ := (hl t List.mem_cons_self).1.mdiHelper_total arr.length (hf t List.mem_cons_self) t.nodes.length 0 (by omega)
      (List.length_pos_iff.2 (hl t List.mem_cons_self).2) arr rfl
    unfold mdiLoop
    rw [h1]
    simp only []
    exact ih (fun t ht => hl t (List.mem_cons_of_mem _ ht)) (fun t ht => by
      rw [(mdiHelper_ok h1).1]; exact hf t (List.mem_cons_of_mem _ ht))

end FF
