import Verif.Spec.CartMore
import Verif.Proofs.Cart
import Verif.Proofs.Recode
import Verif.Props.Criteria

/-!
# Transferring greedy trees between problems
-/

namespace Spec

set_option linter.unusedSectionVars false

variable {K : Type} [Field K] [LinearOrder K]

/-! ### Copies -/

section copies
variable {α β : Type} {k : Nat} {l : List α}

theorem copies_succ (k : Nat) (l : List α) : copies (k + 1) l = l ++ copies k l := by
  unfold copies
  rw [List.replicate_succ, List.flatten_cons]

theorem copies_zero (l : List α) : copies 0 l = [] := rfl

theorem copies_nil (k : Nat) : copies k ([] : List α) = [] := by
  induction k with
  | zero => rfl
  | succ k ih => rw [copies_succ, ih]; rfl

theorem copies_map (f : α → β) : (copies k l).map f = copies k (l.map f) := by
  induction k with
  | zero => rfl
  | succ k ih => rw [copies_succ, copies_succ, List.map_append, ih]

theorem copies_filter (p : α → Bool) : (copies k l).filter p = copies k (l.filter p) := by
  induction k with
  | zero => rfl
  | succ k ih => rw [copies_succ, copies_succ, List.filter_append, ih]

theorem copies_length : (copies k l).length = k * l.length := by
  induction k with
  | zero => simp [copies_zero]
  | succ k ih => rw [copies_succ, List.length_append, ih]; ring

theorem copies_count [DecidableEq α] (a : α) : (copies k l).count a = k * l.count a := by
  induction k with
  | zero => simp [copies_zero]
  | succ k ih => rw [copies_succ, List.count_append, ih]; ring

theorem mem_copies (hk : k ≠ 0) {a : α} : a ∈ copies k l ↔ a ∈ l := by
  obtain ⟨k, rfl⟩ := Nat.exists_eq_succ_of_ne_zero hk
  clear hk
  induction k with
  | zero => rw [copies_succ, copies_zero, List.append_nil]
  | succ k ih => rw [copies_succ, List.mem_append, ih, or_self]

theorem copies_sum (l : List K) : (copies k l).sum = k * l.sum := by
  induction k with
  | zero => simp [copies_zero]
  | succ k ih => rw [copies_succ, List.sum_append, ih]; push_cast; ring

theorem freq_copies [CharZero K] (hk : k ≠ 0) (l : List K) (c : K) : freq (copies k l) c = freq l c := by
  unfold freq
  rw [copies_count, copies_length]
  push_cast
  exact mul_div_mul_left _ _ (by exact_mod_cast hk)

theorem mean_copies [CharZero K] (hk : k ≠ 0) (l : List K) : mean (copies k l) = mean l := by
  unfold mean
  rw [copies_sum, copies_length]
  push_cast
  exact mul_div_mul_left _ _ (by exact_mod_cast hk)

theorem variance_copies [CharZero K] (hk : k ≠ 0) (l : List K) : variance (copies k l) = variance l := by
  unfold variance
  rw [mean_copies hk, copies_map, mean_copies hk]

theorem dedup_copies (hk : k ≠ 0) (l : List K) : (copies k l).dedup.Perm l.dedup := by
  rw [List.perm_ext_iff_of_nodup (List.nodup_dedup _) (List.nodup_dedup _)]
  intro a
  rw [List.mem_dedup, List.mem_dedup, mem_copies hk]

theorem gini_copies [CharZero K] (hk : k ≠ 0) (l : List K) : gini (copies k l) = gini l := by
  unfold gini
  rw [((dedup_copies hk l).map _).sum_eq]
  simp only [freq_copies hk]

theorem entropy_copies [CharZero K] (hk : k ≠ 0) (log : K → K) (l : List K) : entropy log (copies k l) = entropy log l := by
  unfold entropy
  rw [((dedup_copies hk l).map _).sum_eq]
  simp only [freq_copies hk]

end copies

theorem mean_perm {l l' : List K} (h : l'.Perm l) : mean l' = mean l := by
  unfold mean
  rw [h.sum_eq, h.length_eq]

theorem freq_perm {l l' : List K} (h : l'.Perm l) (c : K) : freq l' c = freq l c := by
  unfold freq
  rw [h.count_eq, h.length_eq]

/-! ### Thresholds depend only on which values occur -/

theorem valueGrid_congr {l l' : List K} (h : ∀ a, a ∈ l' ↔ a ∈ l) : valueGrid l' = valueGrid l := by
  unfold valueGrid
  have hp : l'.dedup.Perm l.dedup := by
    rw [List.perm_ext_iff_of_nodup (List.nodup_dedup _) (List.nodup_dedup _)]
    intro a
    rw [List.mem_dedup, List.mem_dedup, h]
  refine List.Perm.eq_of_pairwise (le := (· ≤ ·)) (fun a b _ _ h1 h2 => le_antisymm h1 h2) (List.pairwise_insertionSort _ _)
    (List.pairwise_insertionSort _ _) ?_
  exact (List.perm_insertionSort _ _).trans (hp.trans (List.perm_insertionSort _ _).symm)

theorem mem_valueGrid {l : List K} {v : K} : v ∈ valueGrid l ↔ v ∈ l := by
  unfold valueGrid
  rw [List.mem_insertionSort, List.mem_dedup]

theorem min?_congr {l l' : List K} (h : ∀ a, a ∈ l' ↔ a ∈ l) : l'.min? = l.min? := by
  cases hl : l.min? with
  | none =>
    rw [List.min?_eq_none_iff] at hl ⊢
    subst hl
    exact List.eq_nil_iff_forall_not_mem.2 (fun a ha => by simpa using (h a).1 ha)
  | some a =>
    rw [List.min?_eq_some_iff] at hl ⊢
    exact ⟨(h a).2 hl.1, fun b hb => hl.2 b ((h b).1 hb)⟩

theorem max?_congr {l l' : List K} (h : ∀ a, a ∈ l' ↔ a ∈ l) : l'.max? = l.max? := by
  cases hl : l.max? with
  | none =>
    rw [List.max?_eq_none_iff] at hl ⊢
    subst hl
    exact List.eq_nil_iff_forall_not_mem.2 (fun a ha => by simpa using (h a).1 ha)
  | some a =>
    rw [List.max?_eq_some_iff] at hl ⊢
    exact ⟨(h a).2 hl.1, fun b hb => hl.2 b ((h b).1 hb)⟩

/-! ### Related problems -/

/-- Two decision trees with the same questions in the same places, and with related leaves. -/
inductive DTree.Rel (S : List Nat → List Nat → Prop) : DTree K → DTree K → Prop
  | leaf {rows rows' : List Nat} (h : S rows rows') : Rel S (.leaf rows) (.leaf rows')
  | node (f : Nat) (v : K) {y n y' n' : DTree K} (hy : Rel S y y') (hn : Rel S n n') : Rel S (.node f v y n) (.node f v y' n')

theorem DTree.Rel.same {S : List Nat → List Nat → Prop} {D D' : DTree K} (h : D.Rel S D') : D.SameQuestions D' := by
  induction h with
  | leaf _ => exact .leaf _ _
  | node f v _ _ ihy ihn => exact .node f v ihy ihn

theorem DTree.Rel.rowsAt {S : List Nat → List Nat → Prop} {D D' : DTree K} (h : D.Rel S D') (hnil : S [] []) (x : List K) :
    S (D.rowsAt x) (D'.rowsAt x) := by
  induction h with
  | leaf h => exact h
  | node f v _ _ ihy ihn =>
    unfold DTree.rowsAt
    cases x[f]? with
    | none => exact hnil
    | some a =>
      dsimp only
      split
      · exact ihy
      · exact ihn

theorem DTree.Rel.eq {D D' : DTree K} {p : List Nat → Prop} (h : D.Rel (fun r r' => r' = r ∧ p r) D') : D' = D := by
  induction h with
  | leaf h => rw [h.1]
  | node f v _ _ ihy ihn => rw [ihy, ihn]

namespace CartProblem

variable {P P' : CartProblem K}

/-- If related sets of rows are split by the same questions into related sets of rows, the greedy trees ask the same questions. -/
theorem IsCart.transfer {S : List Nat → List Nat → Prop}
    (hmay : ∀ d r r', S r r' → (P'.MaySplit d r' ↔ P.MaySplit d r))
    (hbest : ∀ d r r', S r r' → P.MaySplit d r → ∀ c,
      (P'.FirstBest r' c ∧ P'.Worth r' (P'.score r' c) ↔ P.FirstBest r c ∧ P.Worth r (P.score r c)))
    (hle : ∀ r r', S r r' → ∀ c, P.FirstBest r c → S (r.filter (fun i => decide (P.value i c.1 ≤ c.2)))
      (r'.filter (fun i => decide (P'.value i c.1 ≤ c.2))))
    (hgt : ∀ r r', S r r' → ∀ c, P.FirstBest r c → S (r.filter (fun i => decide (c.2 < P.value i c.1)))
      (r'.filter (fun i => decide (c.2 < P'.value i c.1))))
    {d : Nat} {r r' : List Nat} {D : DTree K} (h : P.IsCart d r D) (hS : S r r') : ∃ D', P'.IsCart d r' D' ∧ D.Rel S D' := by
  induction h generalizing r' with
  | leaf h1 =>
    refine ⟨.leaf r', .leaf (fun hm c hc hw => ?_), .leaf hS⟩
    have hm' := (hmay _ _ _ hS).1 hm
    obtain ⟨h2, h3⟩ := (hbest _ _ _ hS hm' c).1 ⟨hc, hw⟩
    exact h1 hm' c h2 h3
  | node hm hb hw _ _ ihy ihn =>
    obtain ⟨h2, h3⟩ := (hbest _ _ _ hS hm _).2 ⟨hb, hw⟩
    obtain ⟨y, y1, y2⟩ := ihy (hle _ _ hS _ hb)
    obtain ⟨n, n1, n2⟩ := ihn (hgt _ _ hS _ hb)
    exact ⟨.node _ _ y n, .node ((hmay _ _ _ hS).2 hm) h2 h3 y1 n1, .node _ _ y2 n2⟩

theorem FirstBest.mem_cols {rows : List Nat} {c : Nat × K} (h : P.FirstBest rows c) : c.1 ∈ P.cols := by
  obtain ⟨a, b, e, _⟩ := h
  have : c ∈ P.candidates rows := by rw [e]; simp
  unfold candidates at this
  obtain ⟨f, hf, hc⟩ := List.mem_flatMap.1 this
  obtain ⟨v, _, rfl⟩ := List.mem_map.1 hc
  exact hf

/-- Where a point ends depends only on the columns of the problem. -/
theorem IsCart.rowsAt_congr {d : Nat} {rows : List Nat} {D : DTree K} (h : P.IsCart d rows D) {x x' : List K}
    (hx : ∀ f ∈ P.cols, x'[f]? = x[f]?) : D.rowsAt x' = D.rowsAt x := by
  induction h with
  | leaf _ => rfl
  | node hm hb hw _ _ ihy ihn =>
    unfold DTree.rowsAt
    rw [hx _ hb.mem_cols, ihy, ihn]

/-! ### Repeated rows -/

/-- `P'` is the problem `P` with every row repeated `k` times. -/
structure KTimes (k : Nat) (P P' : CartProblem K) : Prop where
  cols : P'.cols = P.cols
  grid : ∀ f ∈ P.cols, ∀ vals vals' : List K, vals'.Perm (copies k vals) → P'.grid f vals' = P.grid f vals
  imp : P'.imp = P.imp
  perm : ∀ {a b : List K}, a.Perm b → P.imp a = P.imp b
  copies : ∀ l, P.imp (Spec.copies k l) = P.imp l
  total : P'.total = k * P.total
  size : P'.size = k * P.size
  maxDepth : P'.maxDepth = P.maxDepth
  minSamples : ∀ n, 2 ≤ n → (P'.minSamples < k * n ↔ P.minSamples < n)
  minDecrease : P'.minDecrease = P.minDecrease

/-- The rows `rows'` of `P'` are `k` copies of the rows `rows` of `P`. -/
def RowCopies (k : Nat) (P P' : CartProblem K) (rows rows' : List Nat) : Prop :=
  (rows'.map (fun i => (P'.value i, P'.label i))).Perm (Spec.copies k (rows.map (fun i => (P.value i, P.label i))))

section
variable {k : Nat} {rows rows' : List Nat}

theorem RowCopies.length (h : RowCopies k P P' rows rows') : rows'.length = k * rows.length := by
  have := h.length_eq
  rwa [copies_length, List.length_map, List.length_map] at this

theorem RowCopies.filter (h : RowCopies k P P' rows rows') (p : (Nat → K) × K → Bool) :
    RowCopies k P P' (rows.filter (fun i => p (P.value i, P.label i))) (rows'.filter (fun i => p (P'.value i, P'.label i))) := by
  have := List.Perm.filter p h
  rw [copies_filter, List.filter_map, List.filter_map] at this
  exact this

theorem RowCopies.map {β : Type} (h : RowCopies k P P' rows rows') (g : (Nat → K) × K → β) :
    (rows'.map (fun i => g (P'.value i, P'.label i))).Perm (Spec.copies k (rows.map (fun i => g (P.value i, P.label i)))) := by
  have := List.Perm.map g h
  rw [copies_map, List.map_map, List.map_map] at this
  exact this

theorem RowCopies.change (h : RowCopies k P P' rows rows') (hP : KTimes k P P') [CharZero K] (hk : k ≠ 0) (c : Nat × K) :
    P'.score rows' c = P.score rows c := by
  have h1 := h.map (fun s => (s.1 c.1, s.2))
  dsimp only at h1
  unfold score
  rw [hP.imp]
  generalize rows'.map (fun i => (P'.value i c.1, P'.label i)) = T' at h1
  generalize rows.map (fun i => (P.value i c.1, P.label i)) = T at h1
  have e1 : (labelsLe T' c.2).Perm (Spec.copies k (labelsLe T c.2)) := by
    unfold labelsLe
    rw [← copies_map, ← copies_filter]
    exact (h1.filter _).map _
  have e2 : (labelsGt T' c.2).Perm (Spec.copies k (labelsGt T c.2)) := by
    unfold labelsGt
    rw [← copies_map, ← copies_filter]
    exact (h1.filter _).map _
  have e3 : (T'.map Prod.snd).Perm (Spec.copies k (T.map Prod.snd)) := by
    rw [← copies_map]
    exact h1.map _
  have hk' : (k : K) ≠ 0 := by exact_mod_cast hk
  unfold Spec.change
  rw [hP.perm e1, hP.perm e2, hP.perm e3, hP.copies, hP.copies, hP.copies, e1.length_eq, e2.length_eq, h1.length_eq, copies_length,
    copies_length, copies_length]
  push_cast
  rw [mul_div_mul_left _ _ hk', mul_div_mul_left _ _ hk']

theorem RowCopies.candidates (h : RowCopies k P P' rows rows') (hP : KTimes k P P') : P'.candidates rows' = P.candidates rows := by
  unfold CartProblem.candidates
  rw [hP.cols]
  exact List.flatMap_congr (fun f hf => by rw [hP.grid f hf _ _ (h.map (fun s => s.1 f))])

/-- Repeating every row `k` times changes nothing but the leaves, which also hold every row `k` times. -/
theorem KTimes.isCart [CharZero K] (hP : KTimes k P P') (hk : k ≠ 0) {d : Nat} {D : DTree K} (hD : P.IsCart d rows D)
    (h : RowCopies k P P' rows rows') : ∃ D', P'.IsCart d rows' D' ∧ D.Rel (RowCopies k P P') D' := by
  have hk' : (k : K) ≠ 0 := by exact_mod_cast hk
  refine IsCart.transfer ?_ ?_ ?_ ?_ hD h
  · intro d r r' hS
    have hmix : (∃ i ∈ r', ∃ j ∈ r', P'.label i ≠ P'.label j) ↔ ∃ i ∈ r, ∃ j ∈ r, P.label i ≠ P.label j := by
      have hmem : ∀ y, y ∈ r'.map P'.label ↔ y ∈ r.map P.label := by
        intro y
        have := (hS.map (fun s => s.2)).mem_iff (a := y)
        rw [mem_copies hk] at this
        exact this
      constructor
      · rintro ⟨i, hi, j, hj, hne⟩
        obtain ⟨i', hi', ei⟩ := List.mem_map.1 ((hmem _).1 (List.mem_map.2 ⟨i, hi, rfl⟩))
        obtain ⟨j', hj', ej⟩ := List.mem_map.1 ((hmem _).1 (List.mem_map.2 ⟨j, hj, rfl⟩))
        exact ⟨i', hi', j', hj', by rw [ei, ej]; exact hne⟩
      · rintro ⟨i, hi, j, hj, hne⟩
        obtain ⟨i', hi', ei⟩ := List.mem_map.1 ((hmem _).2 (List.mem_map.2 ⟨i, hi, rfl⟩))
        obtain ⟨j', hj', ej⟩ := List.mem_map.1 ((hmem _).2 (List.mem_map.2 ⟨j, hj, rfl⟩))
        exact ⟨i', hi', j', hj', by rw [ei, ej]; exact hne⟩
    have htwo : (∃ i ∈ r, ∃ j ∈ r, P.label i ≠ P.label j) → 2 ≤ r.length := by
      rintro ⟨i, hi, j, hj, hne⟩
      match r, hi, hj with
      | [a], hi, hj =>
        rw [List.mem_singleton] at hi hj
        rw [hi, hj] at hne
        exact absurd rfl hne
      | _ :: _ :: _, _, _ => simp
    constructor
    · rintro ⟨a, b, c⟩
      refine ⟨fun d hd => a d (by rw [hP.maxDepth]; exact hd), ?_, hmix.1 c⟩
      rw [hS.length] at b
      exact (hP.minSamples _ (htwo (hmix.1 c))).1 b
    · rintro ⟨a, b, c⟩
      refine ⟨fun d hd => a d (by rw [← hP.maxDepth]; exact hd), ?_, hmix.2 c⟩
      rw [hS.length]
      exact (hP.minSamples _ (htwo c)).2 b
  · intro d r r' hS _ c
    have h1 : P'.FirstBest r' c ↔ P.FirstBest r c := by
      unfold FirstBest
      rw [hS.candidates hP]
      simp only [hS.change hP hk]
    have h2 : P'.Worth r' (P'.score r' c) ↔ P.Worth r (P.score r c) := by
      rw [hS.change hP hk]
      have e1 : ((r'.length : K) / (P'.total : K)) = (r.length : K) / (P.total : K) := by
        rw [hS.length, hP.total]
        push_cast
        exact mul_div_mul_left _ _ hk'
      have e2 : ∀ s : K, s * (r'.length : K) / (P'.size : K) = s * (r.length : K) / (P.size : K) := by
        intro s
        rw [mul_div_assoc, mul_div_assoc, hS.length, hP.size]
        push_cast
        rw [mul_div_mul_left _ _ hk']
      constructor
      · rintro ⟨a, b, c⟩
        rw [e2, e1, hP.minDecrease] at c
        rw [e1, hP.minDecrease] at b
        exact ⟨a, b, c⟩
      · rintro ⟨a, b, c⟩
        refine ⟨a, ?_, ?_⟩
        · rw [e1, hP.minDecrease]; exact b
        · rw [e2, e1, hP.minDecrease]; exact c
    rw [h1, h2]
  · intro r r' hS c _
    exact hS.filter (fun s => decide (s.1 c.1 ≤ c.2))
  · intro r r' hS c _
    exact hS.filter (fun s => decide (c.2 < s.1 c.1))

end

/-! ### Additional columns -/

/-- Every candidate split of column `f` is useless: it does not decrease the impurity, or a candidate for one of the columns `old` does
the same. -/
def AddsNothing (P : CartProblem K) (old rows : List Nat) (f : Nat) : Prop :=
  ∀ r : List Nat, r ⊆ rows → r ≠ [] → ∀ v ∈ P.grid f (r.map (fun i => P.value i f)),
    0 ≤ P.score r (f, v) ∨ ∃ g ∈ old, ∃ u ∈ P.grid g (r.map (fun i => P.value i g)), P.score r (g, u) = P.score r (f, v)

/-- `P'` is the problem `P` with additional columns that are not useful for the given rows. -/
structure MoreCols (P P' : CartProblem K) (rows : List Nat) : Prop where
  cols : ∃ extra, P'.cols = P.cols ++ extra ∧ ∀ f ∈ extra, AddsNothing P' P.cols rows f
  value : ∀ i ∈ rows, ∀ f ∈ P.cols, P'.value i f = P.value i f
  label : ∀ i ∈ rows, P'.label i = P.label i
  grid : ∀ f ∈ P.cols, P'.grid f = P.grid f
  imp : P'.imp = P.imp
  total : P'.total = P.total
  size : P'.size = P.size
  maxDepth : P'.maxDepth = P.maxDepth
  minSamples : P'.minSamples = P.minSamples
  minDecrease : P'.minDecrease = P.minDecrease

theorem MoreCols.isCart {rows : List Nat} (hP : MoreCols P P' rows) {d : Nat} {D : DTree K} (hD : P.IsCart d rows D) :
    P'.IsCart d rows D := by
  obtain ⟨extra, hcols, hextra⟩ := hP.cols
  have hscore : ∀ r : List Nat, r ⊆ rows → ∀ c : Nat × K, c.1 ∈ P.cols → P'.score r c = P.score r c := by
    intro r hr c hc
    unfold score
    rw [hP.imp]
    congr 1
    exact List.map_congr_left (fun i hi => by rw [hP.value i (hr hi) _ hc, hP.label i (hr hi)])
  have hcand : ∀ r : List Nat, r ⊆ rows → ∃ E, P'.candidates r = P.candidates r ++ E ∧
      ∀ x ∈ E, ∃ f ∈ extra, ∃ v ∈ P'.grid f (r.map (fun i => P'.value i f)), x = (f, v) := by
    intro r hr
    refine ⟨extra.flatMap (fun f => (P'.grid f (r.map (fun i => P'.value i f))).map (fun v => (f, v))), ?_, ?_⟩
    · unfold candidates
      rw [hcols, List.flatMap_append]
      congr 1
      refine List.flatMap_congr (fun f hf => ?_)
      rw [hP.grid f hf, List.map_congr_left (fun i hi => hP.value i (hr hi) f hf)]
    · intro x hx
      obtain ⟨f, hf, hx⟩ := List.mem_flatMap.1 hx
      obtain ⟨v, hv, rfl⟩ := List.mem_map.1 hx
      exact ⟨f, hf, v, hv, rfl⟩
  have hcols' : ∀ (r : List Nat) (c : Nat × K), c ∈ P.candidates r → c.1 ∈ P.cols := by
    intro r c hc
    unfold candidates at hc
    obtain ⟨f, hf, hc⟩ := List.mem_flatMap.1 hc
    obtain ⟨v, _, rfl⟩ := List.mem_map.1 hc
    exact hf
  suffices hs : ∃ D', P'.IsCart d rows D' ∧ D.Rel (fun r r' => r' = r ∧ r ⊆ rows) D' by
    obtain ⟨D', h1, h2⟩ := hs
    rw [← h2.eq]
    exact h1
  refine IsCart.transfer (P := P) (P' := P') (S := fun r r' => r' = r ∧ r ⊆ rows) ?_ ?_ ?_ ?_ hD ⟨rfl, fun _ h => h⟩
  · rintro d r r' ⟨rfl, hr⟩
    constructor
    · rintro ⟨a, b, i, hi, j, hj, hne⟩
      refine ⟨hP.maxDepth ▸ a, hP.minSamples ▸ b, i, hi, j, hj, ?_⟩
      rwa [hP.label i (hr hi), hP.label j (hr hj)] at hne
    · rintro ⟨a, b, i, hi, j, hj, hne⟩
      refine ⟨hP.maxDepth.symm ▸ a, hP.minSamples.symm ▸ b, i, hi, j, hj, ?_⟩
      rwa [hP.label i (hr hi), hP.label j (hr hj)]
  · rintro d r r' ⟨rfl, hr⟩ hm c
    have hne : r' ≠ [] := by
      rintro rfl
      have := hm.size
      simp at this
    have hworth : ∀ s, P'.Worth r' s ↔ P.Worth r' s := by
      intro s
      constructor
      · rintro ⟨a, b, c⟩
        rw [hP.total, hP.minDecrease] at b c
        rw [hP.size] at c
        exact ⟨a, b, c⟩
      · rintro ⟨a, b, c⟩
        refine ⟨a, ?_, ?_⟩
        · rw [hP.total, hP.minDecrease]; exact b
        · rw [hP.total, hP.minDecrease, hP.size]; exact c
    rw [hworth]
    obtain ⟨E, hE, hx⟩ := hcand r' hr
    have hEx : ∀ x ∈ E, 0 ≤ P'.score r' x ∨ ∃ y ∈ P.candidates r', P'.score r' y = P'.score r' x := by
      intro x hxE
      obtain ⟨f, hf, v, hv, rfl⟩ := hx x hxE
      rcases hextra f hf r' hr hne v hv with h | ⟨g, hg, u, hu, e⟩
      · exact Or.inl h
      · rw [hP.grid g hg, List.map_congr_left (fun i hi => hP.value i (hr hi) g hg)] at hu
        exact Or.inr ⟨(g, u), List.mem_flatMap.2 ⟨g, hg, List.mem_map.2 ⟨u, hu, rfl⟩⟩, e⟩
    constructor
    · rintro ⟨⟨a, b, e, hlt, hle⟩, hw⟩
      have hneg := hw.neg
      rw [hE] at e
      rcases List.append_eq_append_iff.1 e with ⟨a', ea, eb⟩ | ⟨c', ec, ed⟩
      · -- the candidate is a new one
        have hcE : c ∈ E := by rw [eb]; simp
        rcases hEx c hcE with h | ⟨y, hy, ey⟩
        · exact absurd hneg (not_lt.2 h)
        · have := hlt y (by rw [ea]; exact List.mem_append_left _ hy)
          rw [ey] at this
          exact absurd this (lt_irrefl _)
      · cases c' with
        | nil =>
          rw [List.nil_append] at ed
          have hcE : c ∈ E := by rw [← ed]; simp
          rcases hEx c hcE with h | ⟨y, hy, ey⟩
          · exact absurd hneg (not_lt.2 h)
          · rw [ec, List.append_nil] at hy
            have := hlt y hy
            rw [ey] at this
            exact absurd this (lt_irrefl _)
        | cons c0 c' =>
          rw [List.cons_append, List.cons.injEq] at ed
          obtain ⟨rfl, rfl⟩ := ed
          have hc : c ∈ P.candidates r' := by rw [ec]; simp
          have hs := hscore r' hr c (hcols' _ _ hc)
          rw [hs] at hw
          refine ⟨⟨a, c', ec, ?_, ?_⟩, hw⟩
          · intro x hxa
            have := hlt x hxa
            rwa [hs, hscore r' hr x (hcols' r' x (by rw [ec]; exact List.mem_append_left _ hxa))] at this
          · intro x hxa
            have := hle x (List.mem_append_left _ hxa)
            rwa [hs, hscore r' hr x (hcols' r' x (by rw [ec]; simp [hxa]))] at this
    · rintro ⟨⟨a, b, e, hlt, hle⟩, hw⟩
      have hneg := hw.neg
      have hc : c ∈ P.candidates r' := by rw [e]; simp
      have hs := hscore r' hr c (hcols' _ _ hc)
      have hall : ∀ y ∈ P.candidates r', P.score r' c ≤ P.score r' y := by
        intro y hy
        rw [e, List.mem_append, List.mem_cons] at hy
        rcases hy with hy | rfl | hy
        · exact (hlt y hy).le
        · exact le_refl _
        · exact hle y hy
      rw [hs]
      refine ⟨⟨a, b ++ E, by rw [hE, e, List.append_assoc]; rfl, ?_, ?_⟩, hw⟩
      · intro x hxa
        rw [hs, hscore r' hr x (hcols' r' x (by rw [e]; exact List.mem_append_left _ hxa))]
        exact hlt x hxa
      · intro x hxb
        rw [hs]
        rcases List.mem_append.1 hxb with hxb | hxb
        · rw [hscore r' hr x (hcols' r' x (by rw [e]; simp [hxb]))]
          exact hle x hxb
        · rcases hEx x hxb with h | ⟨y, hy, ey⟩
          · exact hneg.le.trans h
          · rw [← ey, hscore r' hr y (hcols' _ _ hy)]
            exact hall y hy
  · rintro r r' ⟨rfl, hr⟩ c hc
    refine ⟨List.filter_congr (fun i hi => by rw [hP.value i (hr hi) _ hc.mem_cols]), fun i hi => hr (List.mem_of_mem_filter hi)⟩
  · rintro r r' ⟨rfl, hr⟩ c hc
    refine ⟨List.filter_congr (fun i hi => by rw [hP.value i (hr hi) _ hc.mem_cols]), fun i hi => hr (List.mem_of_mem_filter hi)⟩

/-! ### Columns that add nothing -/

section nothing
variable {rows : List Nat} {F f : Nat}

theorem labelsLe_rows (r : List Nat) (c : Nat × K) : labelsLe (r.map (fun i => (P.value i c.1, P.label i))) c.2 =
    (r.filter (fun i => decide (P.value i c.1 ≤ c.2))).map P.label := by
  unfold labelsLe
  rw [List.filter_map, List.map_map]
  rfl

theorem labelsGt_rows (r : List Nat) (c : Nat × K) : labelsGt (r.map (fun i => (P.value i c.1, P.label i))) c.2 =
    (r.filter (fun i => decide (c.2 < P.value i c.1))).map P.label := by
  unfold labelsGt
  rw [List.filter_map, List.map_map]
  rfl

theorem score_rows (r : List Nat) (c : Nat × K) : P.score r c =
    ((r.filter (fun i => decide (P.value i c.1 ≤ c.2))).length : K) / (r.length : K) *
        P.imp ((r.filter (fun i => decide (P.value i c.1 ≤ c.2))).map P.label) +
      ((r.filter (fun i => decide (c.2 < P.value i c.1))).length : K) / (r.length : K) *
        P.imp ((r.filter (fun i => decide (c.2 < P.value i c.1))).map P.label) - P.imp (r.map P.label) := by
  unfold score change
  rw [labelsLe_rows, labelsGt_rows, List.length_map, List.length_map, List.length_map, List.map_map]
  rfl

/-- A split with all rows of the node on one side changes nothing. -/
theorem score_oneSided [CharZero K] {r : List Nat} (hne : r ≠ []) {c : Nat × K}
    (h : (∀ i ∈ r, P.value i c.1 ≤ c.2) ∨ ∀ i ∈ r, c.2 < P.value i c.1) : P.score r c = 0 := by
  have hr : (r.length : K) ≠ 0 := by
    have := List.length_pos_of_ne_nil hne
    exact_mod_cast this.ne'
  rw [score_rows]
  rcases h with h | h
  · have e1 : r.filter (fun i => decide (P.value i c.1 ≤ c.2)) = r := List.filter_eq_self.2 (fun i hi => by simpa using h i hi)
    have e2 : r.filter (fun i => decide (c.2 < P.value i c.1)) = [] := List.filter_eq_nil_iff.2 (fun i hi => by simpa using h i hi)
    rw [e1, e2, div_self hr]
    simp
  · have e1 : r.filter (fun i => decide (P.value i c.1 ≤ c.2)) = [] := List.filter_eq_nil_iff.2 (fun i hi => by simpa using h i hi)
    have e2 : r.filter (fun i => decide (c.2 < P.value i c.1)) = r := List.filter_eq_self.2 (fun i hi => by simpa using h i hi)
    rw [e1, e2, div_self hr]
    simp

/-- Two questions with the same answers have the same score. -/
theorem score_same {r : List Nat} {c c' : Nat × K} (h : ∀ i ∈ r, (P.value i c.1 ≤ c.2 ↔ P.value i c'.1 ≤ c'.2)) :
    P.score r c = P.score r c' := by
  have e1 : r.filter (fun i => decide (P.value i c.1 ≤ c.2)) = r.filter (fun i => decide (P.value i c'.1 ≤ c'.2)) :=
    List.filter_congr (fun i hi => decide_eq_decide.2 (h i hi))
  have e2 : r.filter (fun i => decide (c.2 < P.value i c.1)) = r.filter (fun i => decide (c'.2 < P.value i c'.1)) :=
    List.filter_congr (fun i hi => decide_eq_decide.2 (by rw [← not_le, ← not_le, h i hi]))
  rw [score_rows, score_rows, e1, e2]

/-- Two questions with opposite answers have the same score. -/
theorem score_opposite {r : List Nat} {c c' : Nat × K} (h : ∀ i ∈ r, (P.value i c.1 ≤ c.2 ↔ c'.2 < P.value i c'.1)) :
    P.score r c = P.score r c' := by
  have e1 : r.filter (fun i => decide (P.value i c.1 ≤ c.2)) = r.filter (fun i => decide (c'.2 < P.value i c'.1)) :=
    List.filter_congr (fun i hi => decide_eq_decide.2 (h i hi))
  have e2 : r.filter (fun i => decide (c.2 < P.value i c.1)) = r.filter (fun i => decide (P.value i c'.1 ≤ c'.2)) :=
    List.filter_congr (fun i hi => decide_eq_decide.2 (by rw [← not_le, h i hi, not_lt]))
  rw [score_rows, score_rows, e1, e2]
  ring

/-- A largest value of a feature among some rows. -/
theorem exists_largest (value : Nat → K) {l : List Nat} (hne : l ≠ []) : ∃ i ∈ l, ∀ j ∈ l, value j ≤ value i := by
  induction l with
  | nil => exact absurd rfl hne
  | cons a l ih =>
    by_cases hl : l = []
    · subst hl
      exact ⟨a, by simp, fun j hj => by rw [List.mem_singleton.1 hj]⟩
    · obtain ⟨i, hi, hmax⟩ := ih hl
      rcases le_total (value a) (value i) with h | h
      · refine ⟨i, List.mem_cons_of_mem _ hi, fun j hj => ?_⟩
        rcases List.mem_cons.1 hj with rfl | hj
        exacts [h, hmax j hj]
      · refine ⟨a, by simp, fun j hj => ?_⟩
        rcases List.mem_cons.1 hj with rfl | hj
        exacts [le_refl _, (hmax j hj).trans h]

/-- With one threshold per value, a constant column and a monotone function of an old column add nothing. -/
theorem addsNothing_value [CharZero K] {old : List Nat} (hg : ∀ f vals, P.grid f vals = valueGrid vals) (hF : ∀ g < F, g ∈ old)
    (h : NothingNew P.value rows F f) : AddsNothing P old rows f := by
  intro r hr hne v hv
  rw [hg, mem_valueGrid] at hv
  obtain ⟨i0, hi0, rfl⟩ := List.mem_map.1 hv
  rcases h with h | ⟨g, hgF, h | h⟩
  · left
    exact (score_oneSided hne (Or.inl fun i hi => (h i (hr hi) i0 (hr hi0)).le)).ge
  · right
    obtain ⟨m, hm, hmax⟩ := exists_largest (fun i => P.value i g) (l := r.filter (fun i => decide (P.value i f ≤ P.value i0 f)))
      (List.ne_nil_of_mem (List.mem_filter.2 ⟨hi0, by simp⟩))
    obtain ⟨hm1, hm2⟩ := List.mem_filter.1 hm
    rw [decide_eq_true_eq] at hm2
    refine ⟨g, hF g hgF, P.value m g, ?_, ?_⟩
    · rw [hg, mem_valueGrid]
      exact List.mem_map.2 ⟨m, hm1, rfl⟩
    · refine score_same (fun i hi => ⟨fun hle => ?_, fun hle => ?_⟩)
      · exact (h i (hr hi) m (hr hm1) hle).trans hm2
      · exact hmax i (List.mem_filter.2 ⟨hi, by simpa using hle⟩)
  · by_cases hall : ∀ i ∈ r, P.value i f ≤ P.value i0 f
    · left
      exact (score_oneSided hne (Or.inl hall)).ge
    · right
      push Not at hall
      obtain ⟨j, hj, hlt⟩ := hall
      obtain ⟨m, hm, hmax⟩ := exists_largest (fun i => P.value i g) (l := r.filter (fun i => decide (P.value i0 f < P.value i f)))
        (List.ne_nil_of_mem (List.mem_filter.2 ⟨hj, by simpa using hlt⟩))
      obtain ⟨hm1, hm2⟩ := List.mem_filter.1 hm
      rw [decide_eq_true_eq] at hm2
      refine ⟨g, hF g hgF, P.value m g, ?_, ?_⟩
      · rw [hg, mem_valueGrid]
        exact List.mem_map.2 ⟨m, hm1, rfl⟩
      · refine score_opposite (fun i hi => ⟨fun hle => ?_, fun hlt => ?_⟩)
        · exact hm2.trans_le (h i (hr hi) m (hr hm1) hle)
        · exact hmax i (List.mem_filter.2 ⟨hi, by simpa using hlt⟩)

/-- Whatever the thresholds, a constant column and a copy of an old column with the same thresholds add nothing. -/
theorem addsNothing_copy [CharZero K] {old : List Nat} (hF : ∀ g < F, g ∈ old)
    (hg : ∀ g < F, (∀ i ∈ rows, P.value i f = P.value i g) → ∀ vals, P.grid f vals = P.grid g vals)
    (h : ConstantOrCopy P.value rows F f) : AddsNothing P old rows f := by
  intro r hr hne v hv
  rcases h with h | ⟨g, hgF, h⟩
  · left
    refine (score_oneSided hne ?_).ge
    obtain ⟨i0, hi0⟩ := List.exists_mem_of_ne_nil r hne
    rcases le_or_gt (P.value i0 f) v with hle | hlt
    · exact Or.inl fun i hi => (h i (hr hi) i0 (hr hi0)).trans_le hle
    · exact Or.inr fun i hi => hlt.trans_eq (h i0 (hr hi0) i (hr hi))
  · right
    rw [hg g hgF h, List.map_congr_left (fun i hi => h i (hr hi))] at hv
    exact ⟨g, hF g hgF, v, hv, score_same (fun i hi => by dsimp only; rw [h i (hr hi)])⟩

end nothing

end CartProblem

end Spec
