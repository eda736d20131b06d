import Verif.Spec.Missing
import Verif.Props.Used
import Verif.Props.ForestPredict

/-!
# Points with missing and infinite values (C127)
-/

namespace FF

set_option linter.unusedSectionVars false

variable {K : Type} [Field K] [LinearOrder K] [IsStrictOrderedRing K] [FloorRing K] [NpFun K] {G : Type}

/-- All thresholds of the tree are in `[lo, hi)`. -/
def ThrWithin (lo hi : K) (t : Tree K G) : Prop := ∀ nd ∈ t.nodes, nd.left ≠ none → lo ≤ nd.splitValue ∧ nd.splitValue < hi

theorem leX_standIn {lo hi s : K} (h1 : lo ≤ s) (h2 : s < hi) (v : XF K) : leX v s = decide (standIn lo hi v ≤ s) := by
  cases v with
  | nan => simp [leX, standIn, not_le.2 h2]
  | ninf => simp [leX, standIn, h1]
  | fin v => rfl
  | pinf => simp [leX, standIn, not_le.2 h2]

theorem walkX_standIn (nodes : List (Node K)) (x : List (XF K)) (lo hi : K)
    (h : ∀ nd ∈ nodes, nd.left ≠ none → lo ≤ nd.splitValue ∧ nd.splitValue < hi) :
    ∀ fuel id, walkX nodes x fuel id = walk nodes (x.map (standIn lo hi)) fuel id := by
  intro fuel
  induction fuel with
  | zero => intro id; rfl
  | succ n ih =>
    intro id
    rw [walkX, walk]
    cases hn : nodes[id]? with
    | none => rfl
    | some node =>
      simp only []
      cases hl : node.left with
      | none => rfl
      | some l =>
        simp only []
        cases hf : node.splitFeature with
        | none => rfl
        | some f =>
          simp only [List.getElem?_map]
          cases x[f]? with
          | none => rfl
          | some v =>
            simp only [Option.map_some]
            obtain ⟨h1, h2⟩ := h node (List.mem_of_getElem? hn) (by rw [hl]; simp)
            rw [leX_standIn h1 h2, ih l]
            simp only [decide_eq_true_eq]
            cases node.right with
            | none => rfl
            | some r => simp only []; rw [ih r]

/-- C127, trees. NaN and `+inf` are treated like any number above all thresholds of the tree, `-inf` like any number that is not above
one of them. -/
theorem C127_tree (t : Tree K G) (lo hi : K) (h : ThrWithin lo hi t) (x : List (XF K)) :
    t.predictX x = t.predict (x.map (standIn lo hi)) := by
  unfold Tree.predictX Tree.predict
  rw [walkX_standIn t.nodes x lo hi h]
  rfl

theorem treesPredictX_standIn (lo hi : K) (x : List (XF K)) : ∀ ts : List (Tree K G), (∀ t ∈ ts, ThrWithin lo hi t) →
    treesPredictX ts x = treesPredict ts (x.map (standIn lo hi)) := by
  intro ts
  induction ts with
  | nil => intro _; rfl
  | cons t ts ih =>
    intro h
    rw [treesPredictX, treesPredict, C127_tree t lo hi (h t (by simp)), ih (fun t ht => h t (by simp [ht]))]
    rfl

theorem forestX_standIn (f : Forest K G) (lo hi : K) (h : ∀ t ∈ f.trees, ThrWithin lo hi t) (x : List (XF K)) :
    f.predictX x = f.predict (x.map (standIn lo hi)) := by
  unfold Forest.predictX Forest.predict
  rw [treesPredictX_standIn lo hi x f.trees h]
  rfl

/-- A prediction does not change the thresholds of the tree. -/
theorem predict_thr {t t' : Tree K G} {x : List K} {p : Pred K} (h : t.predict x = .ok (p, t')) {lo hi : K} (ht : ThrWithin lo hi t) :
    ThrWithin lo hi t' := by
  have hset : ∀ (id : Nat) (node nd : Node K), t.nodes[id]? = some node → nd.left = node.left → nd.splitValue = node.splitValue →
      ThrWithin lo hi { t with nodes := t.nodes.set id nd } := by
    intro id node nd hn h1 h2 m hm h3
    rcases List.mem_or_eq_of_mem_set hm with hm | rfl
    · exact ht m hm h3
    · rw [h2]
      exact ht node (List.mem_of_getElem? hn) (by rw [← h1]; exact h3)
  unfold Tree.predict at h
  cases hw : walk t.nodes x t.nodes.length 0 with
  | error e => rw [hw] at h; cases h
  | ok id =>
    rw [hw] at h
    simp only [] at h
    cases hn : t.nodes[id]? with
    | none => rw [hn] at h; cases h
    | some node =>
      rw [hn] at h
      simp only [] at h
      split at h
      · split at h
        · cases h; exact ht
        · split at h
          · cases h
          · split at h
            · cases h
            · split at h
              · cases h
              · cases h; refine hset id node _ hn ?_ ?_ <;> rfl
      · split at h
        · cases h; exact ht
        · split at h
          · cases h
          · cases h
          · cases h; refine hset id node _ hn ?_ ?_ <;> rfl

theorem AfterPredicts.thr {t t' : Tree K G} (h : AfterPredicts t t') {lo hi : K} (ht : ThrWithin lo hi t) : ThrWithin lo hi t' := by
  induction h with
  | none => exact ht
  | call _ hp ih => exact predict_thr hp ih

theorem thr_bound_nodes (nodes : List (Node K)) : ∃ M : K, ∀ nd ∈ nodes, -M < nd.splitValue ∧ nd.splitValue < M := by
  induction nodes with
  | nil => exact ⟨0, fun nd h => by cases h⟩
  | cons nd ns ih =>
    obtain ⟨M, hM⟩ := ih
    refine ⟨max M (|nd.splitValue| + 1), fun m hm => ?_⟩
    rcases List.mem_cons.1 hm with rfl | hm
    · have h1 := le_max_right M (|m.splitValue| + 1)
      have h2 := neg_abs_le m.splitValue
      have h3 := le_abs_self m.splitValue
      constructor <;> linarith
    · obtain ⟨h1, h2⟩ := hM m hm
      have h3 := le_max_left M (|nd.splitValue| + 1)
      constructor <;> linarith

theorem thr_bound_trees (ts : List (Tree K G)) : ∃ M : K, ∀ t ∈ ts, ∀ nd ∈ t.nodes, -M < nd.splitValue ∧ nd.splitValue < M := by
  induction ts with
  | nil => exact ⟨0, fun t h => by cases h⟩
  | cons t ts ih =>
    obtain ⟨M, hM⟩ := ih
    obtain ⟨M', hM'⟩ := thr_bound_nodes t.nodes
    refine ⟨max M M', fun u hu nd hnd => ?_⟩
    have h3 := le_max_left M M'
    have h4 := le_max_right M M'
    rcases List.mem_cons.1 hu with rfl | hu
    · obtain ⟨h1, h2⟩ := hM' nd hnd
      constructor <;> linarith
    · obtain ⟨h1, h2⟩ := hM u hu nd hnd
      constructor <;> linarith

/-- C127, forests. For every forest there is a bound such that, whatever was predicted before, the answer for a point with missing or
infinite values is the answer for the point in which any number above the bound replaces NaN and `+inf`, and any number below minus the
bound replaces `-inf`. -/
theorem C127_forest (f : Forest K G) : ∃ M : K, ∀ f1, AfterReads f f1 → ∀ lo hi, lo ≤ -M → M ≤ hi → ∀ x : List (XF K),
    f1.predictX x = f1.predict (x.map (standIn lo hi)) := by
  obtain ⟨M, hM⟩ := thr_bound_trees f.trees
  refine ⟨M, fun f1 ha lo hi h1 h2 x => ?_⟩
  obtain ⟨ts, m, rfl, h3, _⟩ := ha.same
  apply forestX_standIn
  have h0 : ∀ t ∈ f.trees, ThrWithin lo hi t := fun t ht nd hnd _ => by
    obtain ⟨h4, h5⟩ := hM t ht nd hnd
    constructor <;> linarith
  intro t ht
  simp only [] at ht
  clear hM ha
  generalize f.trees = us at h0 h3
  induction h3 with
  | nil => cases ht
  | cons hab _ ih =>
    rcases List.mem_cons.1 ht with rfl | ht
    · exact hab.thr (h0 _ (by simp))
    · exact ih ht (fun t ht' => h0 t (by simp [ht']))

/-- C127, a fitted tree: there is a bound such that, whatever was predicted before, the answer for a point with missing or infinite values is
the answer for the point with numbers beyond the bound in their place; and every point that has the columns of the tree is answered. -/
theorem C127_total_tree (R : Rng K G) (mem : Nat → Junk K) (A : TreeArgs K) (t : Tree K G) (h : Fitted R mem A t)
    (hd : A.cfg.isCls = true → ClassesOK A.cfg.classes) (hrows : A.rows ≠ []) :
    ∃ M : K, ∀ t1, AfterPredicts t t1 → ∀ x : List (XF K),
      (∀ lo hi, lo ≤ -M → M ≤ hi → t1.predictX x = t1.predict (x.map (standIn lo hi))) ∧
      ((∀ f ∈ A.cols, f < x.length) → ∃ p t2, t1.predictX x = .ok (p, t2) ∧ AfterPredicts t t2) := by
  obtain ⟨M, hM⟩ := thr_bound_nodes t.nodes
  have key : ∀ t1, AfterPredicts t t1 → ∀ (x : List (XF K)) (lo hi : K), lo ≤ -M → M ≤ hi →
      t1.predictX x = t1.predict (x.map (standIn lo hi)) := by
    intro t1 ha x lo hi h1 h2
    refine C127_tree t1 lo hi (ha.thr (fun nd hnd _ => ?_)) x
    obtain ⟨h4, h5⟩ := hM nd hnd
    constructor <;> linarith
  refine ⟨M, fun t1 ha x => ⟨key t1 ha x, fun hx => ?_⟩⟩
  obtain ⟨p, t2, hp⟩ := C36_predict_total R mem A t t1 h hd hrows ha (x.map (standIn (-M) M)) (by simpa using hx)
  exact ⟨p, t2, by rw [key t1 ha x (-M) M (le_refl _) (le_refl _), hp], ha.call hp⟩

/-- C127, finite points: the answer is the one described in the other claims. -/
theorem C127_finite (f : Forest K G) (x : List K) : f.predictX (x.map .fin) = f.predict x := by
  obtain ⟨M, hM⟩ := C127_forest f
  have h := hM f .none (-M) M (le_refl _) (le_refl _) (x.map .fin)
  rw [h, List.map_map]
  congr 1
  conv_rhs => rw [← List.map_id x]
  rfl

/-- C127: missing and infinite values never make a prediction fail, and do not change what later predictions can be. -/
theorem C127_total (R : Rng K G) (mem : Nat → Nat → Junk K) (f f' f1 : Forest K G) (w w' : World K G) (data : Option (List (List K)))
    (labels : Option Nat) (hf : Forest.fit R mem f w data labels = .ok (f', w')) (hd : f.cfg.isCls = true → ClassesOK f.classes)
    (hN : f.cfg.alphaN ≤ 1) (hF : f.cfg.alphaF ≤ 1) (hrow : 1 ≤ ((trainData f data).length : K) * f.cfg.alphaN)
    (hne : f'.trees ≠ []) (ha : AfterReads f' f1) (x : List (XF K)) (hx : ((trainData f data).getD 0 []).length ≤ x.length) :
    ∃ p f2, f1.predictX x = .ok (p, f2) ∧ AfterReads f' f2 := by
  obtain ⟨M, hM⟩ := C127_forest f'
  have h := hM f1 ha (-M) M (le_refl _) (le_refl _) x
  obtain ⟨p, f2, hp⟩ := C51_predict_total R mem f f' f1 w w' data labels hf hd hN hF hrow hne ha (x.map (standIn (-M) M))
    (by rw [List.length_map]; exact hx)
  exact ⟨p, f2, by rw [h, hp], ha.predict hp⟩

/-- Points with missing and infinite values asked of a forest of two trees: NaN and `+inf` are answered like 1000, `-inf` like -1000. -/
example : ((runForest rngQ exMems exWorldReg { fcfgQ with isCls := false } exData 0 none).toOption.map
      (fun (q : Forest ℚ Nat × World ℚ Nat) =>
        ([[.fin 0, .nan], [.nan, .fin 1], [.ninf, .pinf], [.fin 4, .ninf]] : List (List (XF ℚ))).map (fun (x : List (XF ℚ)) =>
          ((q.1.predictX x).toOption.map Prod.fst, (q.1.predict (x.map (standIn (-1000) 1000))).toOption.map Prod.fst))) ==
    some [(some (.reg (3 / 2)), some (.reg (3 / 2))), (some (.reg (27 / 2)), some (.reg (27 / 2))),
      (some (.reg (3 / 2)), some (.reg (3 / 2))), (some (.reg 11), some (.reg 11))]) = true := by
  decide +kernel

end FF
