import Verif.Props.Importance
import Verif.Props.Forest
import Verif.Spec.Experiment

/-!
# Property C111: importance experiments are reproducible
-/

namespace FF

open Spec

set_option linter.unusedSectionVars false

variable {K : Type} [Field K] [LinearOrder K] [IsStrictOrderedRing K] [FloorRing K] [NpFun K] {G : Type}
variable (R : Rng K G)

theorem trainForest_glob {mem : Nat → Nat → Junk K} {p : PermImp K G} {w w2 : World K G} (h : w.arrays = w2.arrays) (seed : Nat) :
    PermImp.trainForest R mem p w seed = PermImp.trainForest R mem p w2 seed := by
  have e : Forest.init R w (p.cfg.forestCfg seed) none (some p.data) (some p.labelsRef) p.cfg.budget =
      Forest.init R w2 (p.cfg.forestCfg seed) none (some p.data) (some p.labelsRef) p.cfg.budget := by
    unfold Forest.init
    rw [h]
  unfold PermImp.trainForest
  rw [e]

theorem PermRun.args {cfg : PermCfg K} {score : ImpScore} {seed : Nat} {data : List (List K)} {ref : Nat} {p : PermImp K G}
    (h : PermRun R cfg score seed data ref p) : p.cfg = cfg ∧ p.score = score ∧ p.data = data ∧ p.labelsRef = ref ∧ 2 ≤ cfg.numForests := by
  induction h with
  | init h =>
    unfold PermImp.init at h
    split_ifs at h with h1
    cases h
    exact ⟨rfl, rfl, rfl, rfl, h1⟩
  | call _ h ih =>
    unfold PermImp.importanceArray at h
    split at h
    · cases h
    · rename_i p1 w1 ht
      obtain ⟨gs, g, rfl, _⟩ := trainForests_parts R _ ht
      simp only [] at h
      split at h
      · cases h
      · cases h
        exact ih

theorem seedGen_succ (g : G) (n : Nat) : seedGen R (R.randint g maxSeed).2 n = seedGen R g (n + 1) := by
  induction n with
  | zero => rfl
  | succ n ih => rw [seedGen, ih]; rfl

theorem trainForest_built {mem : Nat → Nat → Junk K} {p p' : PermImp K G} {w w' : World K G} {seed : Nat}
    (h : PermImp.trainForest R mem p w seed = .ok (p', w')) :
    ∃ f, p' = { p with forests := p.forests ++ [f] } ∧ BuiltWith R p.cfg p.data p.labelsRef (w.arrays.getD p.labelsRef []) seed f ∧
      w.arrays.length ≤ w'.arrays.length ∧ ∀ r < w.arrays.length, w'.arrays[r]? = w.arrays[r]? := by
  unfold PermImp.trainForest at h
  cases hi : Forest.init R w (p.cfg.forestCfg seed) none (some p.data) (some p.labelsRef) p.cfg.budget with
  | error e => rw [hi] at h; cases h
  | ok q =>
    obtain ⟨f, w1⟩ := q
    rw [hi] at h
    simp only [] at h
    cases hf : Forest.fit R mem f w1 none none with
    | error e => rw [hf] at h; cases h
    | ok q =>
      obtain ⟨g, w2⟩ := q
      rw [hf] at h
      cases h
      obtain ⟨h1, _, _, _, _, _, _, _, _, h2⟩ := Forest_init_fields hi
      have harr : w1.arrays = w.arrays := by rw [h2]
      have hsame : ∀ r < w.arrays.length, w'.arrays[r]? = w.arrays[r]? := by
        intro r hr
        rw [C54_labels_unchanged_partial R mem w1 w' none none f g hf r (by rw [harr]; exact hr) (Or.inl (by rw [h1]; rfl)), harr]
      refine ⟨g, rfl, ⟨mem, f, w, w1, _, rfl, hi, hf⟩, ?_, hsame⟩
      by_contra hlt
      have := hsame w'.arrays.length (by omega)
      rw [List.getElem?_eq_none (le_refl _), List.getElem?_eq_getElem (by omega)] at this
      cases this

theorem trainForests_built {mem : Nat → Nat → Nat → Junk K} : ∀ (n : Nat) {p p' : PermImp K G} {w w' : World K G},
    PermImp.trainForests R mem n p w = .ok (p', w') →
    ∃ gs, p' = { p with forests := p.forests ++ gs, rng := seedGen R p.rng n } ∧ gs.length = n ∧
      (∀ (i : Nat) (f : Forest K G), gs[i]? = some f →
        p.labelsRef < w.arrays.length → BuiltWith R p.cfg p.data p.labelsRef (w.arrays.getD p.labelsRef []) (seedAt R p.rng i) f) ∧
      w.arrays.length ≤ w'.arrays.length ∧ ∀ r < w.arrays.length, w'.arrays[r]? = w.arrays[r]? := by
  intro n
  induction n with
  | zero =>
    intro p p' w w' h
    cases h
    exact ⟨[], by simp [seedGen], rfl, by simp, le_refl _, fun _ _ => rfl⟩
  | succ n ih =>
    intro p p' w w' h
    unfold PermImp.trainForests at h
    cases ht : PermImp.trainForest R (mem p.forests.length) { p with rng := (R.randint p.rng maxSeed).2 } w (R.randint p.rng maxSeed).1 with
    | error e => rw [ht] at h; cases h
    | ok q =>
      obtain ⟨p1, w1⟩ := q
      rw [ht] at h
      obtain ⟨f, rfl, hf, hl, hs⟩ := trainForest_built R ht
      obtain ⟨gs, h1, h2, h3, h4, h5⟩ := ih h
      refine ⟨f :: gs, ?_, by simp [h2], ?_, by omega, fun r hr => (h5 r (by omega)).trans (hs r hr)⟩
      · rw [h1]
        simp [seedGen_succ]
      · intro i f' hi href
        cases i with
        | zero =>
          simp only [List.getElem?_cons_zero, Option.some.injEq] at hi
          subst hi
          exact hf
        | succ i =>
          rw [List.getElem?_cons_succ] at hi
          have := h3 i f' hi (by simp only []; omega)
          simp only [] at this
          rw [List.getD_eq_getElem?_getD, hs _ href, ← List.getD_eq_getElem?_getD] at this
          unfold seedAt at this ⊢
          rw [seedGen_succ] at this
          exact this

theorem importanceRows_impurity {w : World K G} {p : PermImp K G} (hs : p.score = .impurity) : ∀ (fs : List (Forest K G)) {g g' : G}
    {vs : List (List (XF K))} {fs' : List (Forest K G)}, importanceRows R w p fs g = .ok (vs, fs', g') → g' = g := by
  intro fs
  induction fs with
  | nil => intro g g' vs fs' h; cases h; rfl
  | cons f fs ih =>
    intro g g' vs fs' h
    rw [importanceRows] at h
    cases hv : importanceVec R w p f g with
    | error e => rw [hv] at h; cases h
    | ok q =>
      obtain ⟨v, f1, g1⟩ := q
      have hg : g1 = g := by
        unfold importanceVec at hv
        rw [hs] at hv
        simp only [] at hv
        split at hv
        · cases hv
        · cases hv; rfl
      rw [hv] at h
      simp only [] at h
      cases hr : importanceRows R w p fs g1 with
      | error e => rw [hr] at h; cases h
      | ok q =>
        obtain ⟨vs', fs1, g2⟩ := q
        rw [hr] at h
        cases h
        rw [← hg]
        exact ih hr

/-- What one call does to the object and to the label arrays. -/
theorem importanceArray_built {mem : Nat → Nat → Nat → Junk K} {p p' : PermImp K G} {w w' : World K G} {a : List (List (XF K))}
    (h : PermImp.importanceArray R mem p w = .ok (a, p', w')) :
    ∃ gs, gs.length = p.cfg.numForests ∧ List.Forall₂ AfterReads (p.forests ++ gs) p'.forests ∧
      (∀ (i : Nat) (f : Forest K G), gs[i]? = some f →
        p.labelsRef < w.arrays.length → BuiltWith R p.cfg p.data p.labelsRef (w.arrays.getD p.labelsRef []) (seedAt R p.rng i) f) ∧
      (∀ r < w.arrays.length, w'.arrays[r]? = w.arrays[r]?) ∧
      (p.score = .impurity → p'.rng = seedGen R p.rng p.cfg.numForests) := by
  unfold PermImp.importanceArray at h
  cases ht : PermImp.trainForests R mem p.cfg.numForests p w with
  | error e => rw [ht] at h; cases h
  | ok q =>
    obtain ⟨p1, w1⟩ := q
    rw [ht] at h
    simp only [] at h
    obtain ⟨gs, rfl, h2, h3, h4, h5⟩ := trainForests_built R _ ht
    cases hr : importanceRows R w1 { p with forests := p.forests ++ gs, rng := seedGen R p.rng p.cfg.numForests } (p.forests ++ gs)
        (seedGen R p.rng p.cfg.numForests) with
    | error e => simp only [hr] at h; cases h
    | ok q =>
      obtain ⟨vs, fs, g2⟩ := q
      simp only [hr] at h
      cases h
      obtain ⟨h6, _⟩ := importanceRows_parts R _ hr
      exact ⟨gs, h2, h6, h3, h5, fun hs => importanceRows_impurity R (by exact hs) _ hr⟩

/-! ### C111 -/

/-- C111, reproducible. The result of `get_importance_array`, the state of the object after it and the state of the process after it do not
depend on the state in which the process left the global generators: only the label arrays matter. -/
theorem C111_reproducible (mem : Nat → Nat → Nat → Junk K) (cfg : PermCfg K) (score : ImpScore) (seed : Nat) (data : List (List K)) (ref : Nat)
    (p : PermImp K G) (hp : PermRun R cfg score seed data ref p) (w w2 : World K G) (h : w.arrays = w2.arrays) :
    PermImp.importanceArray R mem p w = PermImp.importanceArray R mem p w2 := by
  obtain ⟨h1, _, _, _, h2⟩ := hp.args
  rw [← h1] at h2
  obtain ⟨n, hn⟩ : ∃ n, p.cfg.numForests = n + 1 := ⟨p.cfg.numForests - 1, by omega⟩
  unfold PermImp.importanceArray
  rw [hn]
  unfold PermImp.trainForests
  rw [trainForest_glob R h]

/-- C111, from scratch. Two objects constructed with equal arguments, in processes that differ in their generators only, are equal, so that all
their results are. -/
theorem C111_construct (cfg : PermCfg K) (score : ImpScore) (seed : Nat) (data : List (List K)) (ref : Nat) (w w2 : World K G)
    (h : w.arrays = w2.arrays) : PermImp.init R w cfg score seed data ref = PermImp.init R w2 cfg score seed data ref := by
  unfold PermImp.init
  rw [show ({ w with glob := setSeed R seed } : World K G) = { w2 with glob := setSeed R seed } by
    cases w; cases w2; cases h; rfl]

/-- C111, forests and labels. A call adds `num_forests` forests. The new forest number `i` is built with draw number `i` of the object's
generator as its `random_state` and fitted to the data and labels of the object; it is only read after that. No label array changes. -/
theorem C111_call (mem : Nat → Nat → Nat → Junk K) (p p' : PermImp K G) (w w' : World K G) (a : List (List (XF K)))
    (href : p.labelsRef < w.arrays.length) (h : PermImp.importanceArray R mem p w = .ok (a, p', w')) :
    p'.forests.length = p.forests.length + p.cfg.numForests ∧
    (∀ (i : Nat) (f : Forest K G), p.forests[i]? = some f → ∃ f', p'.forests[i]? = some f' ∧ AfterReads f f') ∧
    (∀ i < p.cfg.numForests, ∃ f f', p'.forests[p.forests.length + i]? = some f' ∧ AfterReads f f' ∧
      BuiltWith R p.cfg p.data p.labelsRef (w.arrays.getD p.labelsRef []) (seedAt R p.rng i) f) ∧
    ∀ r < w.arrays.length, w'.arrays[r]? = w.arrays[r]? := by
  obtain ⟨gs, h1, h2, h3, h4, _⟩ := importanceArray_built R h
  have hlen := h2.length_eq
  rw [List.length_append, h1] at hlen
  have step : ∀ (i : Nat) (f : Forest K G), (p.forests ++ gs)[i]? = some f → ∃ f', p'.forests[i]? = some f' ∧ AfterReads f f' := by
    intro i f hi
    obtain ⟨hlt, rfl⟩ := List.getElem?_eq_some_iff.1 hi
    have hlt' : i < p'.forests.length := by rw [← h2.length_eq]; exact hlt
    exact ⟨_, List.getElem?_eq_getElem hlt', h2.get hlt hlt'⟩
  refine ⟨hlen.symm, fun i f hi => step i f ?_, fun i hi => ?_, h4⟩
  · rw [List.getElem?_append_left (List.getElem?_eq_some_iff.1 hi).1]
    exact hi
  · have hg : gs[i]? = some (gs[i]'(by omega)) := List.getElem?_eq_getElem _
    obtain ⟨f', e1, e2⟩ := step (p.forests.length + i) _ (by rw [List.getElem?_append_right (by omega), Nat.add_sub_cancel_left]; exact hg)
    exact ⟨_, f', e1, e2, h3 i _ hg href⟩

/-- C111, seeds. With impurity importances, after any number of calls the seed of forest number `i` is draw number `i` of a generator started from
the object's seed: later calls go on with new seeds. -/
theorem C111_seeds (cfg : PermCfg K) (seed : Nat) (data : List (List K)) (ref : Nat) (p : PermImp K G)
    (hp : PermRun R cfg .impurity seed data ref p) :
    p.rng = seedGen R (R.seed seed) p.forests.length := by
  have add : ∀ (g : G) (m n : Nat), seedGen R (seedGen R g m) n = seedGen R g (m + n) := by
    intro g m n
    induction n with
    | zero => rfl
    | succ n ih => rw [seedGen, ih]; rfl
  induction hp with
  | init h =>
    unfold PermImp.init at h
    split_ifs at h
    cases h
    rfl
  | @call q p' w w' mem a hp h ih =>
    obtain ⟨gs, h1, h2, _, _, h5⟩ := importanceArray_built R h
    have hlen := h2.length_eq
    rw [List.length_append, h1] at hlen
    rw [h5 (hp.args R).2.1, ih, add, hlen]

/-- C111, two forests. An object cannot be built for fewer than two forests, and each of its importance arrays has at least two rows (for data
with at least one column), so that there is a pair of rows to compare. -/
theorem C111_two (mem : Nat → Nat → Nat → Junk K) (cfg : PermCfg K) (score : ImpScore) (seed : Nat) (data : List (List K)) (ref : Nat) :
    (cfg.numForests < 2 → ∀ w : World K G, ∃ m, PermImp.init R w cfg score seed data ref = .error (.assertion m)) ∧
    ∀ (p p' : PermImp K G) (w w' : World K G) (a : List (List (XF K))), PermRun R cfg score seed data ref p → data.getD 0 [] ≠ [] →
      PermImp.importanceArray R mem p w = .ok (a, p', w') →
      2 ≤ a.length ∧ a.length = p'.forests.length ∧ ∀ v ∈ a, v.length = (data.getD 0 []).length := by
  constructor
  · intro hn w
    unfold PermImp.init
    rw [if_neg (by omega)]
    exact ⟨_, rfl⟩
  · intro p p' w w' a hp hcol h
    obtain ⟨c1, c2, c3, c4, c5⟩ := hp.args R
    have hreach : PermReach R p := by
      clear h hcol c1 c2 c3 c4 c5
      induction hp with
      | init h => exact .init h
      | call _ h ih => exact .call ih h
    rw [← c1] at c5
    rw [← c3] at hcol ⊢
    cases hs : p.score with
    | impurity =>
      obtain ⟨e1, e2, e3⟩ := C71_impurity R mem p p' w w' a hreach hs hcol h
      exact ⟨by omega, e2.symm, fun v hv => (e3 v hv).1⟩
    | permutation =>
      obtain ⟨gs, g, vs, h2, _, _, _, _, h5, h6, h7⟩ := importanceArray_parts R h
      have hrow : ∀ v ∈ vs, v.length = (p.data.getD 0 []).length := by
        intro v hv
        obtain ⟨i, hi, rfl⟩ := List.mem_iff_getElem.1 hv
        have hlen := h7.length_eq
        obtain ⟨f1, g1, g2, e⟩ := h7.get (by rw [hlen]; exact hi) hi
        unfold importanceVec at e
        simp only [hs] at e
        split at e
        · cases e
        · split at e
          · cases e
          · have := (permLoop_parts R _ e).2.1
            simpa using this
      have hfil : vs.filter (fun v => !v.isEmpty) = vs := by
        rw [List.filter_eq_self]
        intro v hv
        have h8 := hrow v hv
        cases v with
        | nil =>
          exfalso
          apply hcol
          rw [← List.length_eq_zero_iff, ← h8]
          rfl
        | cons x xs => rfl
      rw [hfil] at h6
      subst h6
      have hl1 := h5.length_eq
      have hl2 := h7.length_eq
      rw [List.length_append, h2] at hl1 hl2
      exact ⟨by omega, by omega, hrow⟩
    | other =>
      obtain ⟨gs, g, vs, h2, _, _, _, _, _, _, h7⟩ := importanceArray_parts R h
      have hl := h7.length_eq
      rw [List.length_append, h2] at hl
      have h0 : 0 < vs.length := by omega
      obtain ⟨f1, g1, g2, e⟩ := h7.get (i := 0) (by rw [h7.length_eq]; exact h0) h0
      unfold importanceVec at e
      simp only [hs] at e
      cases e

/-! ### Concrete cases -/

/-- Another state of the generators, and the same array. -/
example : (do let (p, w) ← PermImp.init rngQ exWorld permCfgQ .impurity 3 exData 0
              let (a, p, _) ← PermImp.importanceArray rngQ (fun _ => exMems) p { w with glob := ⟨17, 42⟩ }
              pure (a, p.forests.map (fun (f : Forest ℚ Nat) => f.cfg.randomState))).toOption =
    some ([[.fin (8 / 45), .fin (49 / 90)], [.fin (28 / 45), .fin (4 / 15)]], [seedAt rngQ (rngQ.seed 3) 0, seedAt rngQ (rngQ.seed 3) 1]) := by
  decide +kernel

example : (PermImp.init rngQ exWorld { permCfgQ with numForests := 1 } .impurity 3 exData 0).toOption.isNone = true := by decide +kernel

end FF
