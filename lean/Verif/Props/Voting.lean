import Verif.Props.ForestPredict
import Verif.Props.ForestEx
import Verif.Props.Prefix
import Verif.Props.OneTree
import Verif.Spec.Voting

/-!
# C165: how the trees of a forest vote
-/

set_option linter.unusedSectionVars false

namespace Spec

variable {K : Type} [Field K] [LinearOrder K] [IsStrictOrderedRing K]

theorem Wins.unique {n : Nat} {s : Nat → K} {i i' : Nat} (h : Wins n s i) (h' : Wins n s i') : i = i' := by
  rcases lt_trichotomy i i' with q | q | q
  · exact absurd (h'.first i q) (not_lt.2 (h.top i' h'.lt))
  · exact q
  · exact absurd (h.first i' q) (not_lt.2 (h'.top i h.lt))

theorem Wins.add {n : Nat} {s s' : Nat → K} {i : Nat} (h : Wins n s i) (h' : Wins n s' i) : Wins n (fun j => s j + s' j) i :=
  ⟨h.lt, fun j hj => add_le_add (h.top j hj) (h'.top j hj), fun j hj => add_lt_add (h.first j hj) (h'.first j hj)⟩

theorem Wins.scale {n : Nat} {s : Nat → K} {i : Nat} {c : K} (hc : 0 < c) : Wins n (fun j => s j / c) i ↔ Wins n s i := by
  constructor
  · intro h
    exact ⟨h.lt, fun j hj => (div_le_div_iff_of_pos_right hc).1 (h.top j hj), fun j hj => (div_lt_div_iff_of_pos_right hc).1 (h.first j hj)⟩
  · intro h
    exact ⟨h.lt, fun j hj => (div_le_div_iff_of_pos_right hc).2 (h.top j hj), fun j hj => (div_lt_div_iff_of_pos_right hc).2 (h.first j hj)⟩

theorem Wins.congr {n : Nat} {s s' : Nat → K} {i : Nat} (hs : ∀ j < n, s j = s' j) (h : Wins n s i) : Wins n s' i :=
  ⟨h.lt, fun j hj => by rw [← hs j hj, ← hs i h.lt]; exact h.top j hj,
    fun j hj => by rw [← hs j (lt_trans hj h.lt), ← hs i h.lt]; exact h.first j hj⟩

theorem Wins.sum {n : Nat} {i : Nat} {qs : List (List K)} (hne : qs ≠ []) (h : ∀ q ∈ qs, Wins n (fun j => q.getD j 0) i) :
    Wins n (fun j => (qs.map (fun q => q.getD j 0)).sum) i := by
  induction qs with
  | nil => exact absurd rfl hne
  | cons q rest ih =>
    by_cases hr : rest = []
    · subst hr
      simpa using h q (by simp)
    · have := (h q (by simp)).add (ih hr (fun q' hq' => h q' (by simp [hq'])))
      simpa using this

theorem wins_mean {n : Nat} {i : Nat} {qs : List (List K)} (hne : qs ≠ []) :
    Wins n (fun j => mean (qs.map (fun q => q.getD j 0))) i ↔ Wins n (fun j => (qs.map (fun q => q.getD j 0)).sum) i := by
  have hc : (0 : K) < (qs.length : K) := by exact_mod_cast List.length_pos_iff.2 hne
  rw [← Wins.scale (s := fun j => (qs.map (fun q => q.getD j 0)).sum) hc]
  simp only [mean, List.length_map]

end Spec

namespace FF

open Spec

variable {K : Type} [Field K] [LinearOrder K] [IsStrictOrderedRing K] [FloorRing K] [NpFun K] {G : Type}
variable (R : Rng K G) (mem : Nat → Nat → Junk K)

/-- What a classification forest does with its trees, in terms of `Wins`. -/
theorem forest_wins {f f' f1 f2 : Forest K G} {w w' : World K G} {data : Option (List (List K))} {labels : Option Nat}
    (hf : Forest.fit R mem f w data labels = .ok (f', w')) (hc : f.cfg.isCls = true) (hd : ClassesOK f.classes)
    (ha : AfterReads f' f1) {x : List K} {p : Pred K} (hp : f1.predict x = .ok (p, f2)) :
    ∃ qs label avg i, List.Forall₂ (fun (t : Tree K G) q => ∃ l, (t.predict x).map Prod.fst = .ok (.cls l q)) f'.trees qs ∧ qs ≠ [] ∧
      p = .cls label avg ∧ avg.length = f.classes.length ∧ (∀ j < f.classes.length, avg[j]? = some (mean (qs.map (fun q => q.getD j 0)))) ∧
      (∀ a ∈ avg, 0 ≤ a) ∧ avg.sum = 1 ∧ f.classes[i]? = some (label, i) ∧
      Wins f.classes.length (fun j => (qs.map (fun q => q.getD j 0)).sum) i := by
  obtain ⟨qs, label, avg, i, e1, e2, e3, e4, e5, e6, e7, e8, top, e9, e10⟩ := C51_average R mem f f' f1 f2 w w' data labels hf hc hd ha x p hp
  have hi : i < f.classes.length := (List.getElem?_eq_some_iff.1 e8).1
  have htop : top = mean (qs.map (fun q => q.getD i 0)) := by
    rw [e5 i hi] at e9
    exact (Option.some.inj e9).symm
  refine ⟨qs, label, avg, i, e1, e2, e3, e4, e5, e6, e7, e8, (wins_mean e2).1 ⟨hi, ?_, ?_⟩⟩
  · intro j hj
    rw [← htop]
    exact (e10 j _ (e5 j hj)).1
  · intro j hj
    rw [← htop]
    exact (e10 j _ (e5 j (lt_trans hj hi))).2 hj

/-- What a tree of the forest does: its label wins by its own probabilities. -/
theorem tree_wins {f f' : Forest K G} {w w' : World K G} {data : Option (List (List K))} {labels : Option Nat}
    (hf : Forest.fit R mem f w data labels = .ok (f', w')) (hc : f.cfg.isCls = true) (hd : ClassesOK f.classes) {t : Tree K G} (ht : t ∈ f'.trees)
    {x : List K} {label : K} {q : List K} (hq : (t.predict x).map Prod.fst = .ok (.cls label q)) :
    ∃ i, f.classes[i]? = some (label, i) ∧ Wins f.classes.length (fun j => q.getD j 0) i ∧ q.length = f.classes.length ∧ (∀ a ∈ q, 0 ≤ a) ∧ q.sum = 1 := by
  obtain ⟨ms, _, _, hmade⟩ := Forest_fit_made hf
  obtain ⟨i, hi⟩ := List.mem_iff_getElem?.1 ht
  obtain ⟨m, _, hm, _⟩ := hmade i t hi
  cases htp : t.predict x with
  | error e => rw [htp] at hq; cases hq
  | ok r =>
    obtain ⟨q', t2⟩ := r
    rw [htp] at hq
    have hq' : q' = .cls label q := by cases hq; rfl
    have hcl : m.args.cfg.classes = f.classes := by rw [hm.cfg]; exact (Forest_fit_same hf).2.1
    have hci : m.args.cfg.isCls = true := by
      rw [hm.cfg]; show f'.cfg.isCls = true; rw [(Forest_fit_same hf).1]; exact hc
    obtain ⟨leaf, ys, label', probs, i', _, _, _, e4, e5, e6, e7, _, e9, e10⟩ :=
      C36_leaf_frequencies R (mem i) m.args m.tree t t2 hm.fitted hci (by rw [hcl]; exact hd) hm.after x q' htp
    rw [hq'] at e4
    cases e4
    rw [hcl] at e5 e9 e10
    have hi' : i' < f.classes.length := (List.getElem?_eq_some_iff.1 e9).1
    have hval : ∀ j (hj : j < f.classes.length), q.getD j 0 = freq ys (f.classes[j]).1 := by
      intro j hj
      rw [e5, List.getD_eq_getElem _ _ (by simpa using hj), List.getElem_map]
    have hlab : (f.classes[i']).1 = label := by
      have := (List.getElem?_eq_some_iff.1 e9).2
      rw [this]
    refine ⟨i', e9, ⟨hi', ?_, ?_⟩, by rw [e5, List.length_map], e6, e7⟩
    · intro j hj
      show q.getD j 0 ≤ q.getD i' 0
      rw [hval j hj, hval i' hi', hlab]
      exact (e10 j _ (List.getElem?_eq_getElem hj)).1
    · intro j hj
      show q.getD j 0 < q.getD i' 0
      rw [hval j (lt_trans hj hi'), hval i' hi', hlab]
      exact (e10 j _ (List.getElem?_eq_getElem (lt_trans hj hi'))).2 hj

theorem ClassesOK.index {cs : ClassDict K} (h : ClassesOK cs) {c : K} {i j : Nat} (hi : cs[i]? = some (c, i)) (hj : cs[j]? = some (c, j)) : i = j := by
  have h1 : (cs.map Prod.fst)[i]? = some c := by rw [List.getElem?_map, hi]; rfl
  have h2 : (cs.map Prod.fst)[j]? = some c := by rw [List.getElem?_map, hj]; rfl
  obtain ⟨l1, e1⟩ := List.getElem?_eq_some_iff.1 h1
  obtain ⟨l2, e2⟩ := List.getElem?_eq_some_iff.1 h2
  exact (List.Nodup.getElem_inj_iff h.1).1 (e1.trans e2.symm)

/-- The trees of a group that all vote for a label make this label win in the group. -/
theorem group_wins {f f' : Forest K G} {w w' : World K G} {data : Option (List (List K))} {labels : Option Nat}
    (hf : Forest.fit R mem f w data labels = .ok (f', w')) (hc : f.cfg.isCls = true) (hd : ClassesOK f.classes) {ts : List (Tree K G)}
    (hts : ∀ t ∈ ts, t ∈ f'.trees) {x : List K} {qs : List (List K)}
    (hq : List.Forall₂ (fun (t : Tree K G) q => ∃ l, (t.predict x).map Prod.fst = .ok (.cls l q)) ts qs) (hne : qs ≠ []) {c : K}
    (hv : ∀ t ∈ ts, Votes t x c) : ∃ i, f.classes[i]? = some (c, i) ∧ Wins f.classes.length (fun j => (qs.map (fun q => q.getD j 0)).sum) i := by
  have each : ∀ q ∈ qs, ∃ i, f.classes[i]? = some (c, i) ∧ Wins f.classes.length (fun j => q.getD j 0) i := by
    intro q hqm
    obtain ⟨k, hk⟩ := List.mem_iff_getElem?.1 hqm
    obtain ⟨t, ht, l, hl⟩ := forall₂_getElem hq hk
    have htm := List.mem_of_getElem? ht
    obtain ⟨probs, hpr⟩ := hv t htm
    rw [hl] at hpr
    cases hpr
    obtain ⟨i, e1, e2, _⟩ := tree_wins R mem hf hc hd (hts t htm) hl
    exact ⟨i, e1, e2⟩
  obtain ⟨q0, hq0⟩ := List.exists_mem_of_ne_nil _ hne
  obtain ⟨i, hi, _⟩ := each q0 hq0
  refine ⟨i, hi, Wins.sum hne (fun q hqm => ?_)⟩
  obtain ⟨i', hi', hw'⟩ := each q hqm
  rw [hd.index hi hi']
  exact hw'

/-- **C165, unanimity**. If all trees of a classification forest answer with the same label, so does the forest. -/
theorem C165_unanimous (f f' f1 f2 : Forest K G) (w w' : World K G) (data : Option (List (List K))) (labels : Option Nat)
    (hf : Forest.fit R mem f w data labels = .ok (f', w')) (hc : f.cfg.isCls = true) (hd : ClassesOK f.classes)
    (ha : AfterReads f' f1) (x : List K) (p : Pred K) (hp : f1.predict x = .ok (p, f2)) (c : K) (hv : ∀ t ∈ f'.trees, Votes t x c) :
    ∃ probs, p = .cls c probs := by
  obtain ⟨qs, label, avg, i, e1, e2, e3, _, _, _, _, e8, e9⟩ := forest_wins R mem hf hc hd ha hp
  obtain ⟨i', h1, h2⟩ := group_wins R mem hf hc hd (fun t ht => ht) e1 e2 hv
  have := e9.unique h2
  rw [this, h1] at e8
  cases e8
  exact ⟨avg, e3⟩

/-- C165, probabilities. The probability of a class lies between any bounds of the probabilities that the trees give it. -/
theorem C165_between (f f' f1 f2 : Forest K G) (w w' : World K G) (data : Option (List (List K))) (labels : Option Nat)
    (hf : Forest.fit R mem f w data labels = .ok (f', w')) (hc : f.cfg.isCls = true) (hd : ClassesOK f.classes)
    (ha : AfterReads f' f1) (x : List K) (label : K) (probs : List K) (hp : f1.predict x = .ok (.cls label probs, f2)) (j : Nat) (lo hi : K)
    (hv : ∀ t ∈ f'.trees, ∀ q, Gives t x j q → lo ≤ q ∧ q ≤ hi) (hj : j < f.classes.length) :
    ∃ q, probs[j]? = some q ∧ lo ≤ q ∧ q ≤ hi := by
  obtain ⟨qs, label', avg, i, e1, e2, e3, _, e5, e6⟩ := forest_wins R mem hf hc hd ha hp
  cases e3
  refine ⟨_, e5 j hj, ?_⟩
  have hb : ∀ q ∈ qs, lo ≤ q.getD j 0 ∧ q.getD j 0 ≤ hi := by
    intro q hqm
    obtain ⟨k, hk⟩ := List.mem_iff_getElem?.1 hqm
    obtain ⟨t, ht, l, hl⟩ := forall₂_getElem e1 hk
    have htm := List.mem_of_getElem? ht
    obtain ⟨_, _, _, hlen, _⟩ := tree_wins R mem hf hc hd htm hl
    have hjq : j < q.length := by rw [hlen]; exact hj
    rw [List.getD_eq_getElem _ _ hjq]
    exact hv t htm _ ⟨l, q, hl, List.getElem?_eq_getElem hjq⟩
  have hpos : (0 : K) < (qs.length : K) := by exact_mod_cast List.length_pos_iff.2 e2
  unfold mean
  rw [List.length_map, le_div_iff₀ hpos, div_le_iff₀ hpos]
  clear e1 e2 e5 e6 hp hpos
  induction qs with
  | nil => simp
  | cons q rest ih =>
    have h1 := hb q (by simp)
    have h2 := ih (fun q' hq' => hb q' (by simp [hq']))
    simp only [List.map_cons, List.sum_cons, List.length_cons, Nat.cast_add, Nat.cast_one]
    constructor
    · linarith [h1.1, h2.1]
    · linarith [h1.2, h2.2]

theorem two_le_sum {l : List K} (h0 : ∀ a ∈ l, 0 ≤ a) : ∀ {i j : Nat}, i < j → l.getD i 0 + l.getD j 0 ≤ l.sum := by
  have one : ∀ (l : List K), (∀ a ∈ l, 0 ≤ a) → ∀ j : Nat, l.getD j 0 ≤ l.sum := by
    intro l
    induction l with
    | nil => intro _ j; simp
    | cons a l ih =>
      intro h j
      have ha := h a (by simp)
      have hl := ih (fun b hb => h b (by simp [hb]))
      cases j with
      | zero =>
        have := List.sum_nonneg (l := l) (fun b hb => h b (by simp [hb]))
        simp only [List.getD_cons_zero, List.sum_cons]
        linarith
      | succ j =>
        have := hl j
        simp only [List.getD_cons_succ, List.sum_cons]
        linarith
  induction l with
  | nil => intro i j _; simp
  | cons a l ih =>
    intro i j hij
    cases j with
    | zero => omega
    | succ j =>
      cases i with
      | zero =>
        have := one l (fun b hb => h0 b (by simp [hb])) j
        simp only [List.getD_cons_zero, List.getD_cons_succ, List.sum_cons]
        linarith
      | succ i =>
        have := ih (fun b hb => h0 b (by simp [hb])) (i := i) (j := j) (by omega)
        have ha := h0 a (by simp)
        simp only [List.getD_cons_succ, List.sum_cons]
        linarith

/-- Every sure vote adds one. -/
theorem sure_votes {classes : ClassDict K} {x : List K} {c : K} {i : Nat} (hi : classes[i]? = some (c, i)) {sure ts : List (Tree K G)}
    (hsub : sure.Sublist ts) (hs : ∀ t ∈ sure, SureOf classes t x c) : ∀ {qs : List (List K)},
    List.Forall₂ (fun (t : Tree K G) q => ∃ l, (t.predict x).map Prod.fst = .ok (.cls l q)) ts qs → (∀ q ∈ qs, ∀ a ∈ q, 0 ≤ a) →
      (sure.length : K) ≤ (qs.map (fun q => q.getD i 0)).sum := by
  have nonneg : ∀ (q : List K), (∀ a ∈ q, 0 ≤ a) → 0 ≤ q.getD i 0 := by
    intro q hq
    by_cases h : i < q.length
    · rw [List.getD_eq_getElem _ _ h]; exact hq _ (List.getElem_mem h)
    · rw [List.getD_eq_default _ _ (by omega)]
  induction hsub with
  | slnil => intro qs hq _; cases hq; simp
  | @cons l1 l2 t hsub ih =>
    intro qs hq h0
    cases hq with
    | @cons _ q _ rest h1 h2 =>
      have := ih hs h2 (fun q' hq' => h0 q' (by simp [hq']))
      have hn := nonneg q (h0 q (by simp))
      simp only [List.map_cons, List.sum_cons]
      linarith
  | @cons_cons l1 l2 t hsub ih =>
    intro qs hq h0
    cases hq with
    | @cons _ q _ rest h1 h2 =>
      have := ih (fun t' ht' => hs t' (by simp [ht'])) h2 (fun q' hq' => h0 q' (by simp [hq']))
      obtain ⟨l, hl⟩ := h1
      have hsure := hs t (by simp)
      unfold SureOf at hsure
      rw [hl] at hsure
      have hq1 : q.getD i 0 = 1 := by
        have e : q = classes.map (fun c' => if c'.1 = c then (1 : K) else 0) := by
          injection hsure with e1
          injection e1
        obtain ⟨hlt, hget⟩ := List.getElem?_eq_some_iff.1 hi
        rw [e, List.getD_eq_getElem _ _ (by simpa using hlt), List.getElem_map, hget, if_pos rfl]
      simp only [List.map_cons, List.sum_cons, List.length_cons, Nat.cast_add, Nat.cast_one]
      rw [hq1]
      linarith

/-- **C165, majority**. If more than half of the trees are sure of a label, the forest answers with it, whatever the other trees say. -/
theorem C165_majority (f f' f1 f2 : Forest K G) (w w' : World K G) (data : Option (List (List K))) (labels : Option Nat)
    (hf : Forest.fit R mem f w data labels = .ok (f', w')) (hc : f.cfg.isCls = true) (hd : ClassesOK f.classes)
    (ha : AfterReads f' f1) (x : List K) (p : Pred K) (hp : f1.predict x = .ok (p, f2)) (c : K) (sure : List (Tree K G))
    (hsub : sure.Sublist f'.trees) (hs : ∀ t ∈ sure, SureOf f.classes t x c) (hmaj : f'.trees.length < 2 * sure.length) :
    ∃ probs, p = .cls c probs := by
  obtain ⟨qs, label, avg, i, e1, e2, e3, e4, e5, e6, e7, e8, e9⟩ := forest_wins R mem hf hc hd ha hp
  have hpos : (0 : K) < (qs.length : K) := by exact_mod_cast List.length_pos_iff.2 e2
  have hlen : qs.length = f'.trees.length := e1.length_eq.symm
  obtain ⟨t, ht⟩ : ∃ t, t ∈ sure := List.exists_mem_of_ne_nil _ (by rintro rfl; simp at hmaj)
  obtain ⟨k, hk, _⟩ := tree_wins R mem hf hc hd (hsub.subset ht) (hs t ht)
  have h0 : ∀ q ∈ qs, ∀ a ∈ q, 0 ≤ a := by
    intro q hqm
    obtain ⟨n, hn⟩ := List.mem_iff_getElem?.1 hqm
    obtain ⟨t, ht, l, hl⟩ := forall₂_getElem e1 hn
    obtain ⟨_, _, _, _, h, _⟩ := tree_wins R mem hf hc hd (List.mem_of_getElem? ht) hl
    exact h
  have hvotes := sure_votes hk hsub hs e1 h0
  have hkl : k < f.classes.length := (List.getElem?_eq_some_iff.1 hk).1
  have hil : i < f.classes.length := (List.getElem?_eq_some_iff.1 e8).1
  have hav : ∀ j < f.classes.length, avg.getD j 0 = (qs.map (fun q => q.getD j 0)).sum / (qs.length : K) := by
    intro j hj
    have := e5 j hj
    rw [List.getD_eq_getElem?_getD, this, Option.getD_some]
    unfold mean
    rw [List.length_map]
  have hhalf : 1 < 2 * avg.getD k 0 := by
    rw [hav k hkl, ← mul_div_assoc, lt_div_iff₀ hpos, one_mul, hlen]
    have : (f'.trees.length : K) < 2 * (sure.length : K) := by exact_mod_cast hmaj
    linarith
  have hik : i = k := by
    by_contra hne
    have hle : avg.getD k 0 ≤ avg.getD i 0 := by
      rw [hav k hkl, hav i hil]
      exact (div_le_div_iff_of_pos_right hpos).2 (e9.top k hkl)
    rcases lt_or_gt_of_ne hne with q | q
    · have := two_le_sum e6 q
      rw [e7] at this
      linarith
    · have := two_le_sum e6 q
      rw [e7] at this
      linarith
  rw [hik, hk] at e8
  cases e8
  exact ⟨avg, e3⟩

/-- **C165, more trees**. If a forest answers with a label and all the trees that a forest with the same seed and more trees has in addition answer
with it too, then the larger forest answers with it. -/
theorem C165_more_votes (w : World K G) (cfg : ForestCfg K) (hc : cfg.isCls = true) (n : Nat) (hn : cfg.nEstimators ≤ n)
    (data : List (List K)) (ref : Nat) (budget : Option Int) (f f' f2 f2' : Forest K G) (w1 w1' : World K G)
    (h : runForest R mem w cfg data ref budget = .ok (f, w1))
    (h' : runForest R mem w { cfg with nEstimators := n } data ref budget = .ok (f', w1')) (x : List K) (c : K) (probs : List K) (p' : Pred K)
    (hp : f.predict x = .ok (.cls c probs, f2)) (hp' : f'.predict x = .ok (p', f2'))
    (hv : ∀ t ∈ f'.trees.drop f.trees.length, Votes t x c) : ∃ probs', p' = .cls c probs' := by
  obtain ⟨⟨rest, hrest⟩, _⟩ := C104_more_trees R mem w cfg n hn data ref budget f f' w1 w1' h h'
  obtain ⟨f0, w0, hi, hfit⟩ := runForest_parts h
  obtain ⟨f0', w0', hi', hfit'⟩ := runForest_parts h'
  have hcl : f0.classes = classToIdx (npUnique (w.arrays.getD ref [])) := by
    unfold Forest.init at hi
    simp only [] at hi
    split_ifs at hi <;> (cases hi; rfl)
  have hcl' : f0'.classes = classToIdx (npUnique (w.arrays.getD ref [])) := by
    unfold Forest.init at hi'
    simp only [] at hi'
    split_ifs at hi' <;> (cases hi'; rfl)
  have hd := (C51_default_classes R w w0 cfg hc (some data) ref budget f0 hi).1
  have hd' : ClassesOK f0'.classes := by rw [hcl', ← hcl]; exact hd
  have hc0 : f0.cfg.isCls = true := by rw [(Forest_init_fields hi).1]; exact hc
  have hc0' : f0'.cfg.isCls = true := by rw [(Forest_init_fields hi').1]; exact hc
  obtain ⟨qs, label, avg, i, e1, e2, e3, _, _, _, _, e8, e9⟩ := forest_wins R mem hfit hc0 hd (.none : AfterReads f f) hp
  obtain ⟨qs', label', avg', i', e1', e2', e3', _, _, _, _, e8', e9'⟩ := forest_wins R mem hfit' hc0' hd' (.none : AfterReads f' f') hp'
  cases e3
  rw [← hrest] at e1' hv
  rw [List.drop_left] at hv
  -- split the answers
  have hsplit : qs' = qs ++ qs'.drop qs.length := by
    have ht := List.forall₂_take f.trees.length e1'
    rw [List.take_left] at ht
    have : qs'.take f.trees.length = qs := by
      clear e9 e9' e8 e8' hv hrest
      have key : ∀ (ts : List (Tree K G)) (a b : List (List K)),
          List.Forall₂ (fun (t : Tree K G) q => ∃ l, (t.predict x).map Prod.fst = .ok (.cls l q)) ts a →
          List.Forall₂ (fun (t : Tree K G) q => ∃ l, (t.predict x).map Prod.fst = .ok (.cls l q)) ts b → a = b := by
        intro ts
        induction ts with
        | nil => intro a b ha hb; cases ha; cases hb; rfl
        | cons t ts ih =>
          intro a b ha hb
          cases ha with
          | cons a1 a2 =>
            cases hb with
            | cons b1 b2 =>
              obtain ⟨l, hl⟩ := a1
              obtain ⟨l', hl'⟩ := b1
              rw [hl] at hl'
              rw [ih _ _ a2 b2]
              injection hl' with e
              injection e with _ e
              rw [e]
      exact key _ _ _ ht e1
    rw [e1.length_eq] at this
    conv_lhs => rw [← List.take_append_drop qs.length qs']
    rw [this]
  have hdrop := List.forall₂_drop f.trees.length e1'
  rw [List.drop_left, e1.length_eq] at hdrop
  have hcc : f0'.classes = f0.classes := hcl'.trans hcl.symm
  rw [hcc] at e8' e9'
  have hii : i' = i := by
    by_cases hr : qs'.drop qs.length = []
    · rw [hr, List.append_nil] at hsplit
      rw [hsplit] at e9'
      exact e9'.unique e9
    · obtain ⟨k, hk1, hk2⟩ := group_wins R mem hfit' hc0' hd' (fun t ht => by rw [← hrest]; simp [ht]) hdrop hr hv
      rw [hcc] at hk1 hk2
      have hki : k = i := hd.index hk1 e8
      rw [hki] at hk2
      refine e9'.unique ((e9.add hk2).congr ?_)
      intro j _
      rw [← List.sum_append, ← List.map_append, ← hsplit]
  rw [hii, e8] at e8'
  cases e8'
  exact ⟨avg', e3'⟩

theorem mapM_perm {α β ε : Type} (g : α → Except ε β) {l l' : List α} (h : l.Perm l') : ∀ {ps : List β}, l.mapM g = .ok ps →
    ∃ ps', l'.mapM g = .ok ps' ∧ ps.Perm ps' := by
  induction h with
  | nil => intro ps h; exact ⟨ps, h, .refl _⟩
  | @cons a l l' _ ih =>
    intro ps h
    rw [List.mapM_cons] at h ⊢
    cases hg : g a with
    | error e => rw [hg] at h; cases h
    | ok b =>
      rw [hg] at h
      cases hl : l.mapM g with
      | error e => rw [hl] at h; cases h
      | ok bs =>
        rw [hl] at h
        cases h
        obtain ⟨bs', h1, h2⟩ := ih hl
        rw [h1]
        exact ⟨b :: bs', rfl, h2.cons b⟩
  | swap a b l =>
    intro ps h
    simp only [List.mapM_cons] at h ⊢
    cases hb : g b with
    | error e => rw [hb] at h; cases h
    | ok y =>
      rw [hb] at h
      cases ha : g a with
      | error e => rw [ha] at h; cases h
      | ok z =>
        rw [ha] at h
        cases hl : l.mapM g with
        | error e => rw [hl] at h; cases h
        | ok bs =>
          rw [hl] at h
          cases h
          exact ⟨z :: y :: bs, rfl, .swap _ _ _⟩
  | trans _ _ ih1 ih2 =>
    intro ps h
    obtain ⟨ps1, h1, p1⟩ := ih1 h
    obtain ⟨ps2, h2, p2⟩ := ih2 h1
    exact ⟨ps2, h2, p1.trans p2⟩

/-- **C165, order**. A forest without boosting answers the same if its trees are put in another order. -/
theorem C165_order (f f2 : Forest K G) (hb : f.cfg.boosting = false) (ts : List (Tree K G)) (hts : ts.Perm f.trees) (x : List K) (p : Pred K)
    (hp : f.predict x = .ok (p, f2)) : ∃ f3, ({ f with trees := ts } : Forest K G).predict x = .ok (p, f3) := by
  have h1 := Forest_predict_fst f x
  rw [hp] at h1
  have h2 := Forest_predict_fst ({ f with trees := ts } : Forest K G) x
  dsimp only at h2
  cases hm : f.trees.mapM (fun (t : Tree K G) => (t.predict x).map Prod.fst) with
  | error e => rw [hm] at h1; cases h1
  | ok ps =>
    obtain ⟨ps', h3, h4⟩ := mapM_perm _ hts.symm hm
    rw [hm] at h1
    rw [h3] at h2
    have hans : forestAnswer f.cfg f.classes ps' = forestAnswer f.cfg f.classes ps := by
      have hnil : ps' = [] ↔ ps = [] := by
        constructor
        · rintro rfl; exact h4.eq_nil
        · rintro rfl; exact h4.symm.eq_nil
      have havg : avgProbs f.classes.length (ps'.map Pred.probs) = avgProbs f.classes.length (ps.map Pred.probs) := by
        unfold avgProbs
        apply List.map_congr_left
        intro j _
        exact npMean_perm ((h4.symm.map _).map _)
      have hval : npMean (ps'.map Pred.value) = npMean (ps.map Pred.value) := npMean_perm (h4.symm.map _)
      unfold forestAnswer
      rw [havg, hval, hb]
      simp only [hnil]
      rfl
    change _ = forestAnswer f.cfg f.classes ps' at h2
    change _ = forestAnswer f.cfg f.classes ps at h1
    rw [hans, ← h1] at h2
    cases hq : ({ f with trees := ts } : Forest K G).predict x with
    | error e => rw [hq] at h2; cases h2
    | ok r =>
      rw [hq] at h2
      obtain ⟨p', f3⟩ := r
      cases h2
      exact ⟨f3, rfl⟩

/-- C165, values. The answer of a regression forest without boosting lies between any bounds of the answers of its trees. -/
theorem C165_between_reg (f f' f1 f2 : Forest K G) (w w' : World K G) (data : Option (List (List K))) (labels : Option Nat)
    (hf : Forest.fit R mem f w data labels = .ok (f', w')) (hc : f.cfg.isCls = false) (hb : f.cfg.boosting = false)
    (hN : f.cfg.alphaN ≤ 1) (hF : f.cfg.alphaF ≤ 1) (ha : AfterReads f' f1) (x : List K) (p : Pred K) (hp : f1.predict x = .ok (p, f2)) (lo hi : K)
    (hv : ∀ t ∈ f'.trees, ∀ v, (t.predict x).map Prod.fst = .ok (.reg v) → lo ≤ v ∧ v ≤ hi) : ∃ a, p = .reg a ∧ lo ≤ a ∧ a ≤ hi := by
  obtain ⟨vs, h1, h2, h3, _⟩ := C52_mean_in_range R mem f f' f1 f2 w w' data labels hf hc hb hN hF ha x p hp
  refine ⟨_, h3, mean_between h2 ?_⟩
  intro y hy
  obtain ⟨k, hk⟩ := List.mem_iff_getElem?.1 hy
  obtain ⟨t, ht, hl⟩ := forall₂_getElem h1 hk
  exact hv t (List.mem_of_getElem? ht) y hl

theorem mapM_middle {α β : Type} (g : α → Except Err β) (pre post : List α) (a b : α) (u v : β) (hu : g a = .ok u) (hv : g b = .ok v) {ps : List β}
    (h : (pre ++ a :: post).mapM g = .ok ps) :
    ∃ us vs, ps = us ++ u :: vs ∧ us.length = pre.length ∧ vs.length = post.length ∧ (pre ++ b :: post).mapM g = .ok (us ++ v :: vs) := by
  induction pre generalizing ps with
  | nil =>
    simp only [List.nil_append, List.mapM_cons] at h ⊢
    rw [hu] at h
    rw [hv]
    cases hp : post.mapM g with
    | error e => rw [hp] at h; cases h
    | ok vs =>
      rw [hp] at h
      cases h
      exact ⟨[], vs, rfl, rfl, (mapM_ok hp).length_eq.symm, rfl⟩
  | cons c pre ih =>
    simp only [List.cons_append, List.mapM_cons] at h ⊢
    cases hc : g c with
    | error e => rw [hc] at h; cases h
    | ok w =>
      rw [hc] at h
      cases hp : (pre ++ a :: post).mapM g with
      | error e => rw [hp] at h; cases h
      | ok qs =>
        rw [hp] at h
        cases h
        obtain ⟨us, vs, e1, e2, e3, e4⟩ := ih hp
        refine ⟨w :: us, vs, by rw [e1]; rfl, by simp [e2], e3, ?_⟩
        rw [e4]
        rfl

/-- **C165, one tree**. One tree of a regression forest of `n` trees without boosting counts for one `n`-th: if it is exchanged for another one, the answer
moves by one `n`-th of the difference of their answers. -/
theorem C165_one_tree (f f2 : Forest K G) (hc : f.cfg.isCls = false) (hb : f.cfg.boosting = false) (pre post : List (Tree K G)) (t t' : Tree K G)
    (hts : f.trees = pre ++ t :: post) (x : List K) (a v v' : K) (hp : f.predict x = .ok (.reg a, f2))
    (hv : (t.predict x).map Prod.fst = .ok (.reg v)) (hv' : (t'.predict x).map Prod.fst = .ok (.reg v')) :
    ∃ f3, ({ f with trees := pre ++ t' :: post } : Forest K G).predict x = .ok (.reg (a + (v' - v) / (f.trees.length : K)), f3) := by
  have h1 := Forest_predict_fst f x
  rw [hp] at h1
  have h2 := Forest_predict_fst ({ f with trees := pre ++ t' :: post } : Forest K G) x
  dsimp only at h2
  cases hm : f.trees.mapM (fun (t : Tree K G) => (t.predict x).map Prod.fst) with
  | error e => rw [hm] at h1; cases h1
  | ok ps =>
    have hm' := hm
    rw [hts] at hm'
    obtain ⟨us, vs, e1, e2, e3, e4⟩ := mapM_middle _ pre post t t' _ _ hv hv' hm'
    rw [hm] at h1
    rw [e4] at h2
    change _ = forestAnswer f.cfg f.classes ps at h1
    change _ = forestAnswer f.cfg f.classes _ at h2
    have hn : (0 : K) < (f.trees.length : K) := by rw [hts]; simp; positivity
    unfold forestAnswer at h1 h2
    rw [hc, hb] at h1 h2
    rw [e1] at h1
    simp only [Bool.false_eq_true, if_false, List.append_eq_nil_iff, List.cons_ne_nil, and_false, Except.map, Except.ok.injEq, Pred.reg.injEq] at h1 h2
    have hval : npMean ((us ++ Pred.reg v' :: vs).map Pred.value) = a + (v' - v) / (f.trees.length : K) := by
      rw [h1]
      unfold npMean
      have hl : (f.trees.length : K) = (pre.length : K) + ((post.length : K) + 1) := by rw [hts]; simp
      simp only [List.map_append, List.map_cons, List.sum_append, List.sum_cons, List.length_append, List.length_cons, List.length_map, e2, e3, Pred.value]
      push_cast
      rw [← hl]
      field_simp
      ring
    cases hq : ({ f with trees := pre ++ t' :: post } : Forest K G).predict x with
    | error e => rw [hq] at h2; cases h2
    | ok r =>
      obtain ⟨p', f3⟩ := r
      rw [hq] at h2
      simp only [Except.ok.injEq] at h2
      rw [hval] at h2
      exact ⟨f3, by rw [h2]⟩

theorem forestAnswer_cls {cfg : ForestCfg K} {classes : ClassDict K} (hc : cfg.isCls = true) {ps : List (Pred K)} {label : K} {probs : List K}
    (h : forestAnswer cfg classes ps = .ok (.cls label probs)) : probs = avgProbs classes.length (ps.map Pred.probs) := by
  unfold forestAnswer at h
  rw [if_pos hc] at h
  split at h
  · cases h
  · split at h
    · cases h
    · split at h
      · cases h
      · cases h
        rfl

/-- C165, one tree of a classifier. If one tree of `n` is exchanged for another one, the probability of each class moves by one `n`-th of the difference
of the probabilities that the two trees give it. -/
theorem C165_one_tree_cls (f f2 f3 : Forest K G) (hc : f.cfg.isCls = true) (pre post : List (Tree K G)) (t t' : Tree K G)
    (hts : f.trees = pre ++ t :: post) (x : List K) (label label' l l' : K) (probs probs' q q' : List K)
    (hp : f.predict x = .ok (.cls label probs, f2))
    (hp' : ({ f with trees := pre ++ t' :: post } : Forest K G).predict x = .ok (.cls label' probs', f3))
    (hv : (t.predict x).map Prod.fst = .ok (.cls l q)) (hv' : (t'.predict x).map Prod.fst = .ok (.cls l' q')) (j : Nat) (hj : j < f.classes.length) :
    ∃ a, probs[j]? = some a ∧ probs'[j]? = some (a + (q'.getD j 0 - q.getD j 0) / (f.trees.length : K)) := by
  have h1 := Forest_predict_fst f x
  rw [hp] at h1
  have h2 := Forest_predict_fst ({ f with trees := pre ++ t' :: post } : Forest K G) x
  rw [hp'] at h2
  dsimp only at h2
  cases hm : f.trees.mapM (fun (t : Tree K G) => (t.predict x).map Prod.fst) with
  | error e => rw [hm] at h1; cases h1
  | ok ps =>
    have hm' := hm
    rw [hts] at hm'
    obtain ⟨us, vs, e1, e2, e3, e4⟩ := mapM_middle _ pre post t t' _ _ hv hv' hm'
    rw [hm] at h1
    rw [e4] at h2
    change _ = forestAnswer f.cfg f.classes ps at h1
    change _ = forestAnswer f.cfg f.classes _ at h2
    have hn : (0 : K) < (f.trees.length : K) := by rw [hts]; simp; positivity
    rw [forestAnswer_cls hc h1.symm, forestAnswer_cls hc h2.symm, e1]
    unfold avgProbs
    refine ⟨_, by rw [List.getElem?_map, List.getElem?_range hj]; rfl, ?_⟩
    rw [List.getElem?_map, List.getElem?_range hj]
    refine congrArg some ?_
    unfold npMean
    have hl : (f.trees.length : K) = (pre.length : K) + ((post.length : K) + 1) := by rw [hts]; simp
    simp only [List.map_append, List.map_cons, List.sum_append, List.sum_cons, List.length_append, List.length_cons, List.length_map, e2, e3, Pred.probs]
    push_cast
    rw [← hl]
    field_simp
    ring

/-! ### The hypotheses can be met; what does not hold -/

/-- The answers of the trees and of the forest for a point, and the answer of the forest with its trees in reverse order. -/
def askAll (w : World ℚ Nat) (cfg : ForestCfg ℚ) (x : List ℚ) : Option (List (Option (Pred ℚ)) × Option (Pred ℚ) × Option (Pred ℚ)) :=
  (runForest rngQ exMems w cfg exData 0 none).toOption.map (fun r => (r.1.trees.map (fun t => (t.predict x).toOption.map Prod.fst),
    (r.1.predict x).toOption.map Prod.fst, (({ r.1 with trees := r.1.trees.reverse } : Forest ℚ Nat).predict x).toOption.map Prod.fst))

/-- Two trees that agree; a third one that does not, and two of three win. -/
example : askAll exWorld fcfgQ [4, 2] =
      some ([some (.cls 1 [0, 1]), some (.cls 1 [0, 1])], some (.cls 1 [0, 1]), some (.cls 1 [0, 1])) ∧
    askAll exWorld { fcfgQ with nEstimators := 3 } [4, 2] =
      some ([some (.cls 1 [0, 1]), some (.cls 1 [0, 1]), some (.cls 0 [1, 0])], some (.cls 1 [1 / 3, 2 / 3]), some (.cls 1 [1 / 3, 2 / 3])) := by
  decide +kernel

/-- One tree, and a second one that agrees with it (C165, more trees). -/
example : askAll exWorld { fcfgQ with nEstimators := 1 } [4, 2] = some ([some (.cls 1 [0, 1])], some (.cls 1 [0, 1]), some (.cls 1 [0, 1])) := by
  decide +kernel

/-- Trees that are not sure do not count as whole votes: two of three trees say 1, and the forest says 0. -/
theorem C165_not_heads : (askAll exWorld { fcfgQ with nEstimators := 3, maxDepth := .some 0, minSamplesSplit := 4 } [0, 5]).map
    (fun r => (r.1.map (fun a => a.bind (fun p => match p with | .cls l _ => some l | .reg _ => none)),
      r.2.1.bind (fun p => match p with | .cls l _ => some l | .reg _ => none))) = some ([some 1, some 1, some 0], some 0) := by
  decide +kernel

/-- With boosting the order matters: the first tree counts in full, the others with the learning rate. -/
theorem C165_boosted_order : askAll exWorldReg fcfgBoost [0, 5] =
    some ([some (.reg (7 / 3)), some (.reg (-4 / 3))], some (.reg (5 / 3)), some (.reg (-1 / 6))) := by
  decide +kernel

/-- Regression without boosting (C165, values and one tree): the mean of two trees, in either order. -/
example : askAll exWorldReg { fcfgQ with isCls := false } [0, 5] = some ([some (.reg 1), some (.reg 2)], some (.reg (3 / 2)), some (.reg (3 / 2))) := by
  decide +kernel

end FF
