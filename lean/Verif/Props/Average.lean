import Verif.Props.ForestPredict
import Verif.Props.TrainError
import Verif.Props.ForestEx

/-!
# C143: averaging trees does not make the error larger

The squared error of the mean of some answers is the mean of their squared errors less the mean of their squared distances to the mean.
-/

namespace FF

open Spec

set_option linter.unusedSectionVars false

variable {K : Type} [Field K] [LinearOrder K] [IsStrictOrderedRing K] [FloorRing K] [NpFun K] {G : Type}

/-- Sum of the squared errors of the answers `v` on a test set of points and targets. -/
def testError (pts : List (List K × K)) (v : List K → K) : K := (pts.map (fun p => (v p.1 - p.2) ^ 2)).sum

/-- Sum of the squared distances between two ways to answer. -/
def distance (pts : List (List K × K)) (v v' : List K → K) : K := (pts.map (fun p => (v p.1 - v' p.1) ^ 2)).sum

/-- The Brier score of class probabilities `q`: sum of the squared distances between the probability of each class and 1 or 0, as the
point is in that class or not. -/
def brier (classes : List K) (pts : List (List K × K)) (q : List K → Nat → K) : K :=
  (pts.map (fun p => ((List.range classes.length).map (fun j => (q p.1 j - if classes.getD j 0 = p.2 then 1 else 0) ^ 2)).sum)).sum

/-- Sum of the squared distances between two ways to give class probabilities. -/
def brierDistance (classes : List K) (pts : List (List K × K)) (q q' : List K → Nat → K) : K :=
  (pts.map (fun p => ((List.range classes.length).map (fun j => (q p.1 j - q' p.1 j) ^ 2)).sum)).sum

theorem mean_map_sub {α : Type} (l : List α) (f g : α → K) : mean (l.map (fun a => f a - g a)) = mean (l.map f) - mean (l.map g) := by
  unfold mean
  rw [List.length_map, List.length_map, List.length_map, ← sub_div]
  congr 1
  induction l with
  | nil => simp
  | cons a l ih => simp only [List.map_cons, List.sum_cons, ih]; ring

theorem mean_map_add {α : Type} (l : List α) (f g : α → K) : mean (l.map (fun a => f a + g a)) = mean (l.map f) + mean (l.map g) := by
  unfold mean
  rw [List.length_map, List.length_map, List.length_map, ← add_div]
  congr 1
  induction l with
  | nil => simp
  | cons a l ih => simp only [List.map_cons, List.sum_cons, ih]; ring

theorem mean_map_zero {α : Type} (l : List α) : mean (l.map (fun _ => (0 : K))) = 0 := by
  unfold mean
  have : (l.map (fun _ => (0 : K))).sum = 0 := by
    induction l with
    | nil => rfl
    | cons a l ih => rw [List.map_cons, List.sum_cons, ih, add_zero]
  rw [this, zero_div]

/-- The mean of sums is the sum of the means. -/
theorem mean_sum_comm {α β : Type} (l : List α) (ps : List β) (F : α → β → K) :
    mean (l.map (fun a => (ps.map (F a)).sum)) = (ps.map (fun p => mean (l.map (fun a => F a p)))).sum := by
  induction ps with
  | nil => simp only [List.map_nil, List.sum_nil]; exact mean_map_zero l
  | cons p ps ih =>
    simp only [List.map_cons, List.sum_cons]
    rw [mean_map_add, ih]

theorem sum_map_minus {β : Type} (ps : List β) (F H : β → K) : (ps.map F).sum - (ps.map H).sum = (ps.map (fun p => F p - H p)).sum := by
  induction ps with
  | nil => simp
  | cons a ps ih => simp only [List.map_cons, List.sum_cons, ← ih]; ring

theorem mean_nonneg' {l : List K} (h : ∀ x ∈ l, 0 ≤ x) : 0 ≤ mean l :=
  div_nonneg (List.sum_nonneg h) (Nat.cast_nonneg _)

/-- Squared error of a mean: the mean squared error less the spread. -/
theorem sq_mean_eq {α : Type} (l : List α) (hl : l ≠ []) (u : α → K) (y : K) :
    (mean (l.map u) - y) ^ 2 = mean (l.map (fun a => (u a - y) ^ 2)) - mean (l.map (fun a => (u a - mean (l.map u)) ^ 2)) := by
  have hpos : (l.length : K) ≠ 0 := by
    have := List.length_pos_iff.2 hl
    exact_mod_cast this.ne'
  rw [← mean_map_sub]
  have hs : ∀ (m : K) (l : List α), (l.map (fun a => (u a - y) ^ 2 - (u a - m) ^ 2)).sum =
      2 * (m - y) * (l.map u).sum + (l.length : K) * (y ^ 2 - m ^ 2) := by
    intro m l
    induction l with
    | nil => simp
    | cons a l ih => simp only [List.map_cons, List.sum_cons, List.length_cons, ih]; push_cast; ring
  have hm : (l.map u).sum = (l.length : K) * mean (l.map u) := by
    have := mean_mul_length (ys := l.map u) (by simpa using hl)
    rw [List.length_map] at this
    exact this.symm
  generalize mean (l.map u) = m at hm ⊢
  have e := hs m l
  rw [hm] at e
  unfold mean
  rw [e, List.length_map]
  field_simp
  ring

/-- `Forall₂` as a statement about positions. -/
theorem forall₂_map_range {α β : Type} {r : α → β → Prop} {l : List α} {vs : List β} (h : List.Forall₂ r l vs) (d : β) :
    vs = (List.range l.length).map (fun i => vs.getD i d) ∧ ∀ i a, l[i]? = some a → r a (vs.getD i d) := by
  have hlen := h.length_eq
  constructor
  · apply List.ext_getElem
    · simp [hlen]
    · intro i h1 h2
      simp [List.getD_eq_getElem?_getD, List.getElem?_eq_getElem h1]
  · intro i a ha
    have hi : i < l.length := (List.getElem?_eq_some_iff.1 ha).1
    have hv : vs[i]? = some vs[i] := List.getElem?_eq_getElem (by omega)
    obtain ⟨a', ha', hr⟩ := forall₂_getElem h hv
    rw [ha] at ha'
    cases ha'
    rw [List.getD_eq_getElem?_getD, hv]
    exact hr

theorem list_eq_range (l : List K) {n : Nat} (h : l.length = n) : l = (List.range n).map (fun j => l.getD j 0) := by
  apply List.ext_getElem
  · simp [h]
  · intro i h1 h2
    simp [List.getD_eq_getElem?_getD, List.getElem?_eq_getElem h1]

section
variable {R : Rng K G} {mem : Nat → Nat → Junk K}

/-- The answers of a regression forest and of its trees. -/
theorem forest_answers {f f' f1 : Forest K G} {w w' : World K G} {data : Option (List (List K))} {labels : Option Nat}
    (hf : Forest.fit R mem f w data labels = .ok (f', w')) (hc : f.cfg.isCls = false) (hb : f.cfg.boosting = false)
    (hN : f.cfg.alphaN ≤ 1) (hF : f.cfg.alphaF ≤ 1) (ha : AfterReads f' f1) (xs : List (List K))
    (hp : ∀ x ∈ xs, ∃ p f2, f1.predict x = .ok (p, f2)) :
    ∃ (v : List K → K) (u : Nat → List K → K), ∀ x ∈ xs, (∃ f2, f1.predict x = .ok (.reg (v x), f2)) ∧ f'.trees ≠ [] ∧
      v x = mean ((List.range f'.trees.length).map (fun i => u i x)) ∧
      ∀ (i : Nat) (t : Tree K G), f'.trees[i]? = some t → (t.predict x).map Prod.fst = .ok (.reg (u i x)) := by
  classical
  have key : ∀ x, x ∈ xs → ∃ (a : K) (b : Nat → K), (∃ f2, f1.predict x = .ok (.reg a, f2)) ∧ f'.trees ≠ [] ∧
      a = mean ((List.range f'.trees.length).map b) ∧
      ∀ (i : Nat) (t : Tree K G), f'.trees[i]? = some t → (t.predict x).map Prod.fst = .ok (.reg (b i)) := by
    intro x hx
    obtain ⟨p, f2, h1⟩ := hp x hx
    obtain ⟨vs, h2, h3, h4, _⟩ := C52_mean_in_range R mem f f' f1 f2 w w' data labels hf hc hb hN hF ha x p h1
    obtain ⟨h5, h6⟩ := forall₂_map_range h2 0
    refine ⟨mean vs, fun i => vs.getD i 0, ⟨f2, by rw [h1, h4]⟩, ?_, by rw [← h5], h6⟩
    intro he
    rw [he] at h2
    cases h2
    exact h3 rfl
  refine ⟨fun x => if hx : x ∈ xs then (key x hx).choose else 0, fun i x => if hx : x ∈ xs then (key x hx).choose_spec.choose i else 0, ?_⟩
  intro x hx
  simp only [dif_pos hx]
  exact (key x hx).choose_spec.choose_spec

/-- The class probabilities of a classification forest and of its trees. -/
theorem forest_probs {f f' f1 : Forest K G} {w w' : World K G} {data : Option (List (List K))} {labels : Option Nat}
    (hf : Forest.fit R mem f w data labels = .ok (f', w')) (hc : f.cfg.isCls = true) (hd : ClassesOK f.classes)
    (ha : AfterReads f' f1) (xs : List (List K)) (hp : ∀ x ∈ xs, ∃ p f2, f1.predict x = .ok (p, f2)) :
    ∃ (q : List K → Nat → K) (u : Nat → List K → Nat → K), ∀ x ∈ xs,
      (∃ label f2, f1.predict x = .ok (.cls label ((List.range f.classes.length).map (q x)), f2)) ∧ f'.trees ≠ [] ∧
      (∀ j < f.classes.length, q x j = mean ((List.range f'.trees.length).map (fun i => u i x j))) ∧
      ∀ (i : Nat) (t : Tree K G), f'.trees[i]? = some t → ∃ label,
        (t.predict x).map Prod.fst = .ok (.cls label ((List.range f.classes.length).map (u i x))) := by
  classical
  have key : ∀ x, x ∈ xs → ∃ (a : Nat → K) (b : Nat → Nat → K),
      (∃ label f2, f1.predict x = .ok (.cls label ((List.range f.classes.length).map a), f2)) ∧ f'.trees ≠ [] ∧
      (∀ j < f.classes.length, a j = mean ((List.range f'.trees.length).map (fun i => b i j))) ∧
      ∀ (i : Nat) (t : Tree K G), f'.trees[i]? = some t → ∃ label,
        (t.predict x).map Prod.fst = .ok (.cls label ((List.range f.classes.length).map (b i))) := by
    intro x hx
    obtain ⟨p, f2, h1⟩ := hp x hx
    obtain ⟨qs, label, avg, k, h2, h3, h4, h5, h6, _⟩ := C51_average R mem f f' f1 f2 w w' data labels hf hc hd ha x p h1
    obtain ⟨h7, h8⟩ := forall₂_map_range h2 []
    obtain ⟨ms, _, _, hmade⟩ := Forest_fit_made hf
    have hlenq : ∀ (i : Nat) (t : Tree K G), f'.trees[i]? = some t → (qs.getD i []).length = f.classes.length := by
      intro i t ht
      obtain ⟨l, hl⟩ := h8 i t ht
      obtain ⟨m, _, hm, _⟩ := hmade i t ht
      have hcl : m.args.cfg.classes = f.classes := by rw [hm.cfg]; exact (Forest_fit_same hf).2.1
      have hci : m.args.cfg.isCls = true := by
        rw [hm.cfg]; show f'.cfg.isCls = true; rw [(Forest_fit_same hf).1]; exact hc
      cases htp : t.predict x with
      | error e => rw [htp] at hl; cases hl
      | ok r =>
        obtain ⟨q', t2⟩ := r
        obtain ⟨_, _, _, _, _, _, _, _, e4, e5, _⟩ :=
          C36_leaf_frequencies R (mem i) m.args m.tree t t2 hm.fitted hci (by rw [hcl]; exact hd) hm.after x q' htp
        rw [htp, e4] at hl
        have hpr : _ = qs.getD i [] := (Pred.cls.inj (Except.ok.inj hl)).2
        rw [← hpr, e5, List.length_map, hcl]
    refine ⟨fun j => avg.getD j 0, fun i j => (qs.getD i []).getD j 0, ⟨label, f2, ?_⟩, ?_, ?_, ?_⟩
    · rw [h1, h4]
      congr 3
      exact (list_eq_range avg h5)
    · intro he
      rw [he] at h2
      cases h2
      exact h3 rfl
    · intro j hj
      have := h6 j hj
      beta_reduce
      rw [List.getD_eq_getElem?_getD, this, Option.getD_some]
      conv_lhs => rw [h7]
      rw [List.map_map]
      rfl
    · intro i t ht
      obtain ⟨l, hl⟩ := h8 i t ht
      refine ⟨l, ?_⟩
      rw [hl]
      congr 2
      exact list_eq_range _ (hlenq i t ht)
  refine ⟨fun x => if hx : x ∈ xs then (key x hx).choose else fun _ => 0,
    fun i x => if hx : x ∈ xs then (key x hx).choose_spec.choose i else fun _ => 0, ?_⟩
  intro x hx
  simp only [dif_pos hx]
  exact (key x hx).choose_spec.choose_spec

end

section
variable (R : Rng K G) (mem : Nat → Nat → Junk K)

/-- C143, regression without boosting: on any points and targets, the squared error of the forest is the mean of the squared errors of its
trees, less the mean squared distance between the answers of a tree and of the forest. So it is at most the mean error of the trees. -/
theorem C143_regression (f f' f1 : Forest K G) (w w' : World K G) (data : Option (List (List K))) (labels : Option Nat)
    (hf : Forest.fit R mem f w data labels = .ok (f', w')) (hc : f.cfg.isCls = false) (hb : f.cfg.boosting = false)
    (hN : f.cfg.alphaN ≤ 1) (hF : f.cfg.alphaF ≤ 1) (ha : AfterReads f' f1) (pts : List (List K × K))
    (hp : ∀ p ∈ pts, ∃ a f2, f1.predict p.1 = .ok (a, f2)) :
    ∃ (v : List K → K) (u : Nat → List K → K), (∀ p ∈ pts, ∃ f2, f1.predict p.1 = .ok (.reg (v p.1), f2)) ∧
      (∀ p ∈ pts, ∀ (i : Nat) (t : Tree K G), f'.trees[i]? = some t → (t.predict p.1).map Prod.fst = .ok (.reg (u i p.1))) ∧
      testError pts v = mean ((List.range f'.trees.length).map (fun i => testError pts (u i))) -
        mean ((List.range f'.trees.length).map (fun i => distance pts (u i) v)) ∧
      testError pts v ≤ mean ((List.range f'.trees.length).map (fun i => testError pts (u i))) := by
  obtain ⟨v, u, h⟩ := forest_answers hf hc hb hN hF ha (pts.map Prod.fst) (by
    intro x hx
    obtain ⟨p, hp1, rfl⟩ := List.mem_map.1 hx
    exact hp p hp1)
  have h' : ∀ p ∈ pts, _ := fun p hp1 => h p.1 (List.mem_map.2 ⟨p, hp1, rfl⟩)
  have key : testError pts v = mean ((List.range f'.trees.length).map (fun i => testError pts (u i))) -
      mean ((List.range f'.trees.length).map (fun i => distance pts (u i) v)) := by
    unfold testError distance
    rw [mean_sum_comm, mean_sum_comm]
    rw [sum_map_minus]
    congr 1
    apply List.map_congr_left
    intro p hp1
    obtain ⟨_, hne, hv, _⟩ := h' p hp1
    have hr : List.range f'.trees.length ≠ [] := by
      have := List.length_pos_iff.2 hne
      intro e
      rw [List.range_eq_nil] at e
      omega
    have := sq_mean_eq (List.range f'.trees.length) hr (fun i => u i p.1) p.2
    rw [← hv] at this
    exact this
  refine ⟨v, u, fun p hp1 => (h' p hp1).1, fun p hp1 => (h' p hp1).2.2.2, key, ?_⟩
  rw [key]
  have : 0 ≤ mean ((List.range f'.trees.length).map (fun i => distance pts (u i) v)) := by
    apply mean_nonneg'
    intro x hx
    obtain ⟨i, _, rfl⟩ := List.mem_map.1 hx
    apply List.sum_nonneg
    intro y hy
    obtain ⟨p, _, rfl⟩ := List.mem_map.1 hy
    exact sq_nonneg _
  linarith

/-- C143, classification: on any points and labels, the Brier score of the probabilities of the forest is the mean of the Brier scores of
its trees, less the mean squared distance between the probabilities of a tree and of the forest. So it is at most the mean score of the
trees. -/
theorem C143_classification (f f' f1 : Forest K G) (w w' : World K G) (data : Option (List (List K))) (labels : Option Nat)
    (hf : Forest.fit R mem f w data labels = .ok (f', w')) (hc : f.cfg.isCls = true) (hd : ClassesOK f.classes)
    (ha : AfterReads f' f1) (pts : List (List K × K)) (hp : ∀ p ∈ pts, ∃ a f2, f1.predict p.1 = .ok (a, f2)) :
    ∃ (q : List K → Nat → K) (u : Nat → List K → Nat → K),
      (∀ p ∈ pts, ∃ label f2, f1.predict p.1 = .ok (.cls label ((List.range f.classes.length).map (q p.1)), f2)) ∧
      (∀ p ∈ pts, ∀ (i : Nat) (t : Tree K G), f'.trees[i]? = some t → ∃ label,
        (t.predict p.1).map Prod.fst = .ok (.cls label ((List.range f.classes.length).map (u i p.1)))) ∧
      brier (f.classes.map Prod.fst) pts q = mean ((List.range f'.trees.length).map (fun i => brier (f.classes.map Prod.fst) pts (u i))) -
        mean ((List.range f'.trees.length).map (fun i => brierDistance (f.classes.map Prod.fst) pts (u i) q)) ∧
      brier (f.classes.map Prod.fst) pts q ≤ mean ((List.range f'.trees.length).map (fun i => brier (f.classes.map Prod.fst) pts (u i))) := by
  obtain ⟨q, u, h⟩ := forest_probs hf hc hd ha (pts.map Prod.fst) (by
    intro x hx
    obtain ⟨p, hp1, rfl⟩ := List.mem_map.1 hx
    exact hp p hp1)
  have h' : ∀ p ∈ pts, _ := fun p hp1 => h p.1 (List.mem_map.2 ⟨p, hp1, rfl⟩)
  have key : brier (f.classes.map Prod.fst) pts q =
      mean ((List.range f'.trees.length).map (fun i => brier (f.classes.map Prod.fst) pts (u i))) -
        mean ((List.range f'.trees.length).map (fun i => brierDistance (f.classes.map Prod.fst) pts (u i) q)) := by
    unfold brier brierDistance
    rw [mean_sum_comm, mean_sum_comm, sum_map_minus]
    congr 1
    apply List.map_congr_left
    intro p hp1
    obtain ⟨_, hne, hv, _⟩ := h' p hp1
    have hr : List.range f'.trees.length ≠ [] := by
      have := List.length_pos_iff.2 hne
      intro e
      rw [List.range_eq_nil] at e
      omega
    rw [mean_sum_comm, mean_sum_comm, sum_map_minus]
    congr 1
    apply List.map_congr_left
    intro j hj
    rw [List.mem_range, List.length_map] at hj
    have := sq_mean_eq (List.range f'.trees.length) hr (fun i => u i p.1 j)
      (if (f.classes.map Prod.fst).getD j 0 = p.2 then 1 else 0)
    rw [← hv j hj] at this
    exact this
  refine ⟨q, u, fun p hp1 => (h' p hp1).1, fun p hp1 => (h' p hp1).2.2.2, key, ?_⟩
  rw [key]
  have : 0 ≤ mean ((List.range f'.trees.length).map (fun i => brierDistance (f.classes.map Prod.fst) pts (u i) q)) := by
    apply mean_nonneg'
    intro x hx
    obtain ⟨i, _, rfl⟩ := List.mem_map.1 hx
    apply List.sum_nonneg
    intro y hy
    obtain ⟨p, _, rfl⟩ := List.mem_map.1 hy
    apply List.sum_nonneg
    intro z hz
    obtain ⟨j, _, rfl⟩ := List.mem_map.1 hz
    exact sq_nonneg _
  linarith

end

/-! ### Examples -/

/-- Squared error (regression) or Brier score (classification) of the answers of a tree or of a forest. -/
def predScore (classes : List ℚ) (ans : List ℚ → Option (Pred ℚ)) (pts : List (List ℚ × ℚ)) : Option ℚ :=
  (pts.mapM (fun p => (ans p.1).map (fun a => match a with
    | .reg v => (v - p.2) ^ 2
    | .cls _ q => ((List.range classes.length).map (fun j => (q.getD j 0 - if classes.getD j 0 = p.2 then 1 else 0) ^ 2)).sum))).map List.sum

/-- The scores of a fitted forest and of its trees. -/
def forestScores (w : World ℚ Nat) (cfg : ForestCfg ℚ) (pts : List (List ℚ × ℚ)) : Option (Option ℚ × List (Option ℚ)) :=
  (runForest rngQ exMems w cfg exData 0 none).toOption.map (fun p =>
    (predScore (p.1.classes.map Prod.fst) (fun x => (p.1.predict x).toOption.map Prod.fst) pts,
      p.1.trees.map (fun (t : Tree ℚ Nat) => predScore (p.1.classes.map Prod.fst) (fun x => (t.predict x).toOption.map Prod.fst) pts)))

/-- Brier scores: the forest 5/2, its trees 2 and 4. -/
example : (forestScores exWorld fcfgQ [([0, 1], 0), ([3/2, 4], 1), ([4, 2], 0), ([5, 0], 0)] == some (some (5 / 2), [some 2, some 4])) = true := by
  decide +kernel

/-- Squared errors: the forest 1303/4, its trees 279 and 390. -/
example : (forestScores exWorldReg { fcfgQ with isCls := false, criterion := .mse }
    [([0, 1], 0), ([3/2, 4], 1), ([4, 2], 0), ([5, 0], 0)] == some (some (1303 / 4), [some 279, some 390])) = true := by
  decide +kernel

/-- On how many points the answer has the right label. -/
def numHits (ans : List ℚ → Option (Pred ℚ)) (pts : List (List ℚ × ℚ)) : Nat :=
  pts.countP (fun p => match ans p.1 with
    | some (.cls l _) => decide (l = p.2)
    | _ => false)

/-- C143 is about probabilities. The number of right labels may be smaller for the forest than for every one of its trees: each of these two
trees is right on one of two points, the forest on none. -/
theorem C143_not_accuracy : ∃ f w, runForest rngQ exMems exWorld fcfgQ exData 0 none = .ok (f, w) ∧
    numHits (fun x => (f.predict x).toOption.map Prod.fst) [([0, 0], 1), ([5, 5], 1)] = 0 ∧
    f.trees.map (fun (t : Tree ℚ Nat) => numHits (fun x => (t.predict x).toOption.map Prod.fst) [([0, 0], 1), ([5, 5], 1)]) = [1, 1] := by
  have h : (match runForest rngQ exMems exWorld fcfgQ exData 0 none with
      | .ok (f, _) => decide (numHits (fun x => (f.predict x).toOption.map Prod.fst) [([0, 0], 1), ([5, 5], 1)] = 0 ∧
          f.trees.map (fun (t : Tree ℚ Nat) => numHits (fun x => (t.predict x).toOption.map Prod.fst) [([0, 0], 1), ([5, 5], 1)]) = [1, 1])
      | .error _ => false) = true := by decide +kernel
  split at h
  · rename_i f w hf
    exact ⟨f, w, hf, of_decide_eq_true h⟩
  · cases h

end FF
