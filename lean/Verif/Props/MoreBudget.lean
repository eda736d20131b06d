import Verif.Props.Unspent
import Verif.Props.ColOrder

/-!
# A larger budget (C150)
-/

namespace FF

set_option linter.unusedSectionVars false

open Spec

variable {K : Type} [Field K] [LinearOrder K] [IsStrictOrderedRing K] [FloorRing K] [NpFun K] {G : Type}

section
variable {R : Rng K G} {mem : Nat → Nat → Junk K} {B1 B2 : Option Int}

theorem Within.larger {q : Nat} (hle : ∀ b2, B2 = some b2 → ∃ b1, B1 = some b1 ∧ b1 ≤ b2) (h : Within B1 q) : Within B2 q := by
  intro b2 hb2
  obtain ⟨b1, e1, e2⟩ := hle b2 hb2
  have := h b1 e1
  omega

/-- A tree that a forest with a budget keeps has asked a query. -/
theorem forestStep_asked {data : List (List K)} {F i : Nat} {f f' : Forest K G} {w w' : World K G}
    (h : forestStep R mem data F i f w = .ok (true, f', w')) (hr : f.remaining ≠ none) :
    ∀ t ∈ f'.trees, t ∈ f.trees ∨ 0 < t.numQueries := by
  unfold forestStep at h
  dsimp only at h
  split at h
  · cases h
  · cases hsp : spent f.remaining with
    | true => rw [hsp, if_pos rfl] at h; cases h
    | false =>
      rw [hsp, if_neg (by simp)] at h
      split at h
      · cases h
      · split at h
        · cases h
        · split at h
          · cases h
          · split at h
            · cases h
            · rename_i tree _ _
              cases hk : keepTree f.remaining tree.numQueries with
              | false => rw [hk, if_neg (by simp)] at h; cases h
              | true =>
                rw [hk, if_pos rfl] at h
                split at h
                · cases h
                · rename_i tree' hb
                  cases h
                  intro t ht
                  rcases List.mem_append.1 ht with ht | ht
                  · exact Or.inl ht
                  · right
                    rw [List.mem_singleton.1 ht, boostStep_queries hb]
                    cases hrem : f.remaining with
                    | none => exact absurd hrem hr
                    | some b =>
                      rw [hrem] at hk
                      simp only [keepTree, Bool.and_eq_true, decide_eq_true_eq] at hk
                      exact hk.1

/-- What is left of the budget is the budget less the queries. -/
theorem forestStep_left {data : List (List K)} {F i : Nat} {f f' : Forest K G} {w w' : World K G}
    (h : forestStep R mem data F i f w = .ok (true, f', w')) (hr : f.remaining = leftOf B1 f.numQueries) :
    f'.remaining = leftOf B1 f'.numQueries := by
  unfold forestStep at h
  dsimp only at h
  split at h
  · cases h
  · cases hsp : spent f.remaining with
    | true => rw [hsp, if_pos rfl] at h; cases h
    | false =>
      rw [hsp, if_neg (by simp)] at h
      split at h
      · cases h
      · split at h
        · cases h
        · split at h
          · cases h
          · split at h
            · cases h
            · rename_i tree _ _
              cases hk : keepTree f.remaining tree.numQueries with
              | false => rw [hk, if_neg (by simp)] at h; cases h
              | true =>
                rw [hk, if_pos rfl] at h
                split at h
                · cases h
                · cases h
                  show Option.map _ f.remaining = _
                  rw [hr]
                  exact leftOf_leftOf _ _ _

/-- Once the budget is spent the loop adds nothing. -/
theorem forestLoop_spent {data : List (List K)} {F : Nat} (is : List Nat) {f f1 : Forest K G} {w w1 : World K G}
    (hsp : spent f.remaining = true) (h : forestLoop R mem data F is f w = .ok (f1, w1)) :
    f1.trees = f.trees ∧ f1.numQueries = f.numQueries := by
  cases is with
  | nil => cases h; exact ⟨rfl, rfl⟩
  | cons i is =>
    unfold forestLoop at h
    cases hst : forestStep R mem data F i f w with
    | error e => rw [hst] at h; cases h
    | ok p =>
      obtain ⟨b, f2, w2⟩ := p
      rw [hst] at h
      unfold forestStep at hst
      dsimp only at hst
      split at hst
      · cases hst
      · rw [hsp, if_pos rfl] at hst
        cases hst
        cases h
        exact ⟨rfl, rfl⟩

/-- A tree without the note of what was left of the budget when it was finished. -/
def Tree.unpriced (t : Tree K G) : Tree K G := { t with remaining := none }

theorem forestLoop_more (hle : ∀ b2, B2 = some b2 → ∃ b1, B1 = some b1 ∧ b1 ≤ b2) (data : List (List K)) (F : Nat) (is : List Nat) :
    ∀ {f f' f1 f1' : Forest K G} {w w1 w1' : World K G},
    SameButBudget f f' → f.remaining = leftOf B1 f.numQueries → f'.remaining = leftOf B2 f.numQueries →
    (B1 ≠ none → ∀ t ∈ f.trees, 0 < t.numQueries) →
    forestLoop R mem data F is f w = .ok (f1, w1) → forestLoop R mem data F is f' w = .ok (f1', w1') →
    f1.trees.dropLast.map Tree.unpriced <+: f1'.trees.map Tree.unpriced ∧
      (Within B1 f1.numQueries → f1.trees.map Tree.unpriced <+: f1'.trees.map Tree.unpriced) := by
  induction is with
  | nil =>
    intro f f' f1 f1' w w1 w1' hs _ _ _ h h'
    cases h
    cases h'
    have e : f'.trees.map Tree.unpriced = f.trees.map Tree.unpriced := hs.trees
    rw [e]
    exact ⟨(List.dropLast_prefix _).map _, fun _ => List.prefix_refl _⟩
  | cons i is ih =>
    intro f f' f1 f1' w w1 w1' hs hr hr' hpos h h'
    have e : f'.trees.map Tree.unpriced = f.trees.map Tree.unpriced := hs.trees
    have hall : f.trees.map Tree.unpriced <+: f1'.trees.map Tree.unpriced := by
      rw [← e]
      exact (forestLoop_adds data F _ h').1.map _
    unfold forestLoop at h
    cases hst : forestStep R mem data F i f w with
    | error e => rw [hst] at h; cases h
    | ok p =>
      obtain ⟨b, f2, w2⟩ := p
      rw [hst] at h
      obtain ⟨a1, a2, _⟩ := forestStep_adds hst
      cases b with
      | false =>
        cases h
        rw [a2 rfl]
        exact ⟨((List.dropLast_prefix _).map _).trans hall, fun _ => hall⟩
      | true =>
        dsimp only at h
        split_ifs at h with hass
        obtain ⟨t, ht⟩ := a1 rfl
        have hrem2 : f2.remaining = leftOf B1 f2.numQueries := forestStep_left hst hr
        have hpos2 : B1 ≠ none → ∀ t ∈ f2.trees, 0 < t.numQueries := by
          intro hB t ht
          rcases forestStep_asked hst (by rw [hr]; cases hB1 : B1 with
            | none => exact absurd hB1 hB
            | some b => simp [leftOf]) t ht with h0 | h0
          · exact hpos hB t h0
          · exact h0
        by_cases hw : Within B1 f2.numQueries
        · have hw2 : Within B2 f2.numQueries := hw.larger hle
          have hB : B2 ≠ none → B1 ≠ none := by
            intro hn hb1
            cases hB2 : B2 with
            | none => exact hn hB2
            | some b2 =>
              obtain ⟨b1, e1, _⟩ := hle b2 hB2
              rw [hb1] at e1
              cases e1
          obtain ⟨f2', c1, c2, c3, c4⟩ := forestStep_unspent (B2 := B2) hs hr hr' hst hw hw2 (fun hn => hpos2 (hB hn))
          rw [forestLoop_next c1] at h'
          · exact ih c2 c3 c4 hpos2 h h'
          · intro b hb
            rw [c4] at hb
            cases hB : B2 with
            | none => rw [hB] at hb; cases hb
            | some b' =>
              have := hw2 b' hB
              rw [hB] at hb
              simp only [leftOf, Option.map_some, Option.some.injEq] at hb
              unfold buffer
              omega
        · have hsp : spent f2.remaining = true := by
            rw [hrem2]
            by_contra hn
            exact hw (noBudget_leftOf.1 (Bool.eq_false_iff.2 hn))
          obtain ⟨d1, d2⟩ := forestLoop_spent is hsp h
          rw [d1, d2, ht, List.dropLast_concat]
          exact ⟨hall, fun hc => absurd hc hw⟩

end

/-- C150. Fit a forest twice with the same seed, the second time with a larger budget or without one; any kind of forest, any solver. Every
tree of the first forest except its last is the tree at the same place in the second forest, but for the note of what was left of the budget.
If some of the first budget is left in the end this holds for the last tree too. -/
theorem C150_forest (R : Rng K G) (mem : Nat → Nat → Junk K) (w : World K G) (cfg : ForestCfg K) (data : List (List K)) (labels : Nat)
    (b B : Option Int) (hle : ∀ b2, B = some b2 → ∃ b1, b = some b1 ∧ b1 ≤ b2) (f f' : Forest K G) (w1 w1' : World K G)
    (h : runForest R mem w cfg data labels b = .ok (f, w1)) (h' : runForest R mem w cfg data labels B = .ok (f', w1')) :
    (∀ i, i + 1 < f.trees.length → ∃ t t' : Tree K G, f.trees[i]? = some t ∧ f'.trees[i]? = some t' ∧
      t' = { t with remaining := t'.remaining }) ∧
    (Within b f.numQueries → ∀ i, i < f.trees.length → ∃ t t' : Tree K G, f.trees[i]? = some t ∧ f'.trees[i]? = some t' ∧
      t' = { t with remaining := t'.remaining }) := by
  have main : f.trees.dropLast.map Tree.unpriced <+: f'.trees.map Tree.unpriced ∧
      (Within b f.numQueries → f.trees.map Tree.unpriced <+: f'.trees.map Tree.unpriced) := by
    unfold runForest at h h'
    have hz : ∀ B : Option Int, leftOf B 0 = B := by
      intro B
      cases B with
      | none => rfl
      | some b => simp [leftOf]
    have hi : Forest.init R w cfg none (some data) (some labels) B =
        (Forest.init R w cfg none (some data) (some labels) b).map (fun p => ({ p.1 with remaining := B }, p.2)) := by
      unfold Forest.init
      dsimp only
      split_ifs <;> rfl
    cases h0 : Forest.init R w cfg none (some data) (some labels) b with
    | error e => rw [h0] at h; cases h
    | ok p =>
      obtain ⟨f0, w0⟩ := p
      rw [h0] at h hi
      rw [hi] at h'
      simp only [Bind.bind, Except.bind, Except.map] at h h'
      have hf0 : f0.remaining = b ∧ f0.numQueries = 0 := by
        unfold Forest.init at h0
        dsimp only at h0
        split_ifs at h0
        all_goals
          simp only [Except.ok.injEq, Prod.mk.injEq] at h0
          rw [← h0.1]
          exact ⟨rfl, rfl⟩
      obtain ⟨s, hs0, hs⟩ := forestFit_budget (R := R) (mem := mem) f0 w0
      have e0 : f0 = f0.budgeted b := by rw [← hf0.1]; rfl
      have e1 : ({ f0 with remaining := B } : Forest K G) = f0.budgeted B := rfl
      rw [e0, hs] at h
      rw [e1, hs] at h'
      cases s with
      | error e => cases h
      | ok q =>
        obtain ⟨d, F, f1, w2⟩ := q
        simp only [Except.bind] at h h'
        obtain ⟨t0, q0⟩ := hs0 _ rfl
        dsimp only at t0 q0
        refine forestLoop_more (B1 := b) (B2 := B) hle d F _ (f := f1.budgeted b) (f' := f1.budgeted B) ⟨rfl, rfl⟩ ?_ ?_ ?_ h h'
        · show b = leftOf b f1.numQueries
          rw [q0, hf0.2, hz]
        · show B = leftOf B f1.numQueries
          rw [q0, hf0.2, hz]
        · intro _ t ht
          have : t ∈ f1.trees := ht
          rw [t0] at this
          cases this
  have pick : ∀ (l l' : List (Tree K G)), l.map Tree.unpriced <+: l'.map Tree.unpriced → ∀ i, i < l.length →
      ∃ t t' : Tree K G, l[i]? = some t ∧ l'[i]? = some t' ∧ t' = { t with remaining := t'.remaining } := by
    intro l l' hp i hi
    have hlen := hp.length_le
    rw [List.length_map, List.length_map] at hlen
    refine ⟨l[i], l'[i]'(by omega), List.getElem?_eq_getElem hi, List.getElem?_eq_getElem (by omega), ?_⟩
    have := hp.getElem (i := i) (by rw [List.length_map]; exact hi)
    rw [List.getElem_map, List.getElem_map] at this
    revert this
    generalize l[i] = t
    generalize l'[i]'(by omega) = t'
    intro this
    cases t
    cases t'
    simp only [Tree.unpriced, Tree.mk.injEq] at this ⊢
    tauto
  refine ⟨fun i hi => ?_, fun hw => pick _ _ (main.2 hw)⟩
  obtain ⟨t, t', e1, e2, e3⟩ := pick _ _ main.1 i (by rw [List.length_dropLast]; omega)
  refine ⟨t, t', ?_, e2, e3⟩
  rw [List.getElem?_dropLast] at e1
  split_ifs at e1
  exact e1

section
variable {G' : Type} {R : Rng K G} {mem : Nat → Junk K} {A : TreeArgs K} {dd : DiscDict K} {t0 t : Tree K G}

/-- Every tree grown by the exact solver, whatever the budget and the limit on leaves, asks only questions of the textbook tree. -/
theorem GrowFacts.pruned (h : GrowFacts R mem A dd t0 t) (hargs : ArgsOK A) (hs : A.cfg.solver = .exact)
    (hbin : A.cfg.binType = some .identity ∨ A.cfg.binType = some .linear) (hfeat : A.cfg.featSub = .none) (hd : A.cfg.maxDepth ≠ .none) :
    ∀ (k id : Nat) (nd : Node K), t.nodes.length - id ≤ k → NodeAt t id nd →
      ∃ D, ReadsAs t id D ∧ ∀ D', A.problem.IsCart nd.depth nd.idcs D' → D'.Refines D := by
  intro k
  induction k with
  | zero =>
    intro id nd hk hn
    have := nodeAt_lt hn
    omega
  | succ k ih =>
    intro id nd hk hn
    have hlt := nodeAt_lt hn
    rcases h.shape.links _ _ hn with ⟨h1, h2⟩ | ⟨l, r, nl, nr, h1, h2, h3, h4, _, h6, h7, h8⟩
    · exact ⟨_, .leaf hn h1 h2, fun D' _ => .leaf _ _⟩
    · obtain ⟨f, hf1, hmay, hb, hw⟩ := h.split_first_best hargs hs hbin hfeat hd hn (by rw [h1]; simp)
      obtain ⟨f', hf2, _, e1, e2⟩ := h8.feat
      rw [hf1] at hf2
      cases hf2
      obtain ⟨y, hy1, hy2⟩ := ih l nl (by omega) h6
      obtain ⟨n, hn1, hn2⟩ := ih r nr (by omega) h7
      rw [h8.left_depth, e1] at hy2
      rw [h8.right_depth, e2] at hn2
      refine ⟨_, .node hn h1 h2 hf1 hy1 hn1, fun D' hD' => ?_⟩
      cases hD' with
      | leaf hno => exact absurd hw (hno hmay _ hb)
      | node hm' hb' hw' hy' hn' =>
        have := hb'.unique hb
        simp only [Prod.mk.injEq] at this
        obtain ⟨rfl, rfl⟩ := this
        exact .node _ _ (hy2 _ hy') (hn2 _ hn')

end

/-- C150 for one tree of the exact solver on all columns. A tree fitted with a budget, or a limit on the number of leaves, or both, is what
is left of the tree without budget and limit when the branches below some of its nodes are cut off: the large tree asks all its questions at
the same places. The seeds may differ. -/
theorem C150_tree {G' : Type} (R : Rng K G) (R' : Rng K G') (mem mem' : Nat → Junk K) (A : TreeArgs K) (hA : NoChoice A) (b : Option Int)
    (m : Option Nat) (seed : Nat) (t : Tree K G) (t' : Tree K G')
    (h : Fitted R mem { A with budget := b, seed := seed, cfg := { A.cfg with maxLeafNodes := m } } t) (h' : Fitted R' mem' A t')
    (hm : A.cfg.maxLeafNodes ≠ some t'.leaves.length) :
    ∃ D D', ReadsAs t 0 D ∧ ReadsAs t' 0 D' ∧ D'.Refines D := by
  obtain ⟨dd, t0, hf⟩ := h.facts
  obtain ⟨root, h1, h2, h3⟩ := hf.shape.root
  obtain ⟨D, e1, e2⟩ := hf.pruned ⟨hA.args.crit, hA.args.minmax_le, hA.args.sorted, hA.args.linear_bins, hA.args.auto_bins⟩ hA.solver
    hA.binning hA.features hA.depth t.nodes.length 0 root (by omega) h1
  obtain ⟨D', r1, r2, _⟩ := C101_greedy_tree R' mem' A hA t' h' hm
  refine ⟨D, D', e1, r1, e2 D' ?_⟩
  rw [h2, h3]
  exact r2

/-- The example forest: with a budget of 20 there is one tree, with 25 and without a budget there are two; the tree of the first forest is the
first tree of the others (it is also the last of its forest and larger than the budget, but was complete when the budget ran out). -/
example :
    let run := fun b : Option Int => (runForest rngQ exMems exWorld fcfgQ exData 0 b).toOption.map (fun p =>
      p.1.trees.map (fun (t : Tree ℚ Nat) => (t.numQueries, t.nodes.map Node.idcs)))
    let first := (22, [[3, 4, 1, 0, 1, 4], [0], [3, 4, 1, 1, 4], [3], [4, 1, 1, 4]])
    run (some 20) = some [first] ∧ run (some 25) = some [first, (12, [[4, 5, 2, 1, 2, 5], [4, 2, 1, 2], [5, 5]])] := by
  dsimp only
  refine ⟨?_, ?_⟩ <;> decide +kernel

theorem isTree_reads {t : Tree ℚ Nat} : ∀ {D : DTree ℚ} {id : Nat}, isTree t id D = true → ReadsAs t id D := by
  intro D
  induction D with
  | leaf rows =>
    intro id h
    unfold isTree at h
    cases hn : t.nodes[id]? with
    | none => rw [hn] at h; cases h
    | some nd =>
      rw [hn] at h
      simp only [Bool.and_eq_true, beq_iff_eq] at h
      obtain ⟨⟨h1, h2⟩, rfl⟩ := h
      exact .leaf hn h1 h2
  | node f v y n ihy ihn =>
    intro id h
    unfold isTree at h
    cases hn : t.nodes[id]? with
    | none => rw [hn] at h; cases h
    | some nd =>
      rw [hn] at h
      dsimp only at h
      cases hl : nd.left with
      | none => rw [hl] at h; cases h
      | some l =>
        cases hr : nd.right with
        | none => rw [hl, hr] at h; cases h
        | some r =>
          rw [hl, hr] at h
          simp only [Bool.and_eq_true, beq_iff_eq] at h
          obtain ⟨⟨⟨h1, rfl⟩, h3⟩, h4⟩ := h
          exact .node hn hl hr h1 (ihy h3) (ihn h4)

/-- A regression problem with one column whose tree asks 8 queries. -/
def exArgsSpend : TreeArgs ℚ := { exArgsReg with data := [[0], [1], [2], [3]], labels := [0, 1, 10, 14] }

theorem exArgsSpend_noChoice : NoChoice exArgsSpend :=
  ⟨⟨rfl, fun _ _ h => (by cases h), fun _ _ h => (by cases h), fun h => (by cases h), fun h => by cases h⟩, rfl, Or.inl rfl, rfl, rfl,
    by simp [exArgsSpend, exArgsReg, exArgs, cfgQr, cfgQ]⟩

/-- C150, the limits of the claim. The tree without a budget asks 8 queries and three questions. Of two budgets the larger need not give the
larger tree: 5 buys the question below the left branch, 7 the one below the right branch instead. A budget of 8 is just enough for all the
queries, and all of them are made and charged; yet the last question, which has been found and paid for, is not asked. -/
theorem C150_not_monotone : NoChoice exArgsSpend ∧ ∃ t5 t7 t8 tAll : Tree ℚ Nat,
    Fitted rngQ exMem { exArgsSpend with budget := some 5 } t5 ∧ Fitted rngQ exMem { exArgsSpend with budget := some 7 } t7 ∧
    Fitted rngQ exMem { exArgsSpend with budget := some 8 } t8 ∧ Fitted rngQ exMem exArgsSpend tAll ∧
    ReadsAs t5 0 (.node 0 1 (.node 0 0 (.leaf [0]) (.leaf [1])) (.leaf [2, 3])) ∧
    ReadsAs t7 0 (.node 0 1 (.leaf [0, 1]) (.node 0 2 (.leaf [2]) (.leaf [3]))) ∧
    ReadsAs t8 0 (.node 0 1 (.leaf [0, 1]) (.node 0 2 (.leaf [2]) (.leaf [3]))) ∧ t8.numQueries = 8 ∧
    ReadsAs tAll 0 (.node 0 1 (.node 0 0 (.leaf [0]) (.leaf [1])) (.node 0 2 (.leaf [2]) (.leaf [3]))) ∧ tAll.numQueries = 8 := by
  refine ⟨exArgsSpend_noChoice, ?_⟩
  obtain ⟨t5, a1, a2⟩ := runTree_exists (R := rngQ) (mem := exMem) (A := { exArgsSpend with budget := some 5 }) (glob := exGlob)
    (p := fun t => isTree t 0 (.node 0 1 (.node 0 0 (.leaf [0]) (.leaf [1])) (.leaf [2, 3]))) (by decide +kernel)
  obtain ⟨t7, b1, b2⟩ := runTree_exists (R := rngQ) (mem := exMem) (A := { exArgsSpend with budget := some 7 }) (glob := exGlob)
    (p := fun t => isTree t 0 (.node 0 1 (.leaf [0, 1]) (.node 0 2 (.leaf [2]) (.leaf [3])))) (by decide +kernel)
  obtain ⟨t8, c1, c2⟩ := runTree_exists (R := rngQ) (mem := exMem) (A := { exArgsSpend with budget := some 8 }) (glob := exGlob)
    (p := fun t => isTree t 0 (.node 0 1 (.leaf [0, 1]) (.node 0 2 (.leaf [2]) (.leaf [3]))) && decide (t.numQueries = 8)) (by decide +kernel)
  obtain ⟨tAll, d1, d2⟩ := runTree_exists (R := rngQ) (mem := exMem) (A := exArgsSpend) (glob := exGlob)
    (p := fun t => isTree t 0 (.node 0 1 (.node 0 0 (.leaf [0]) (.leaf [1])) (.node 0 2 (.leaf [2]) (.leaf [3]))) &&
      decide (t.numQueries = 8)) (by decide +kernel)
  rw [Bool.and_eq_true, decide_eq_true_eq] at c2 d2
  exact ⟨t5, t7, t8, tAll, a1, b1, c1, d1, isTree_reads a2, isTree_reads b2, isTree_reads c2.1, c2.2,
    isTree_reads d2.1, d2.2⟩

end FF
