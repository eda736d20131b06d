import Verif.Proofs.Chance
import Verif.Props.OneBatch
import Verif.Props.Solvers2
import Verif.Props.Binning

/-!
# C134: how likely MABSplit is to find an almost best split
-/

namespace FF

open Spec

set_option linter.unusedSectionVars false

variable {K : Type} [Field K] [LinearOrder K] [IsStrictOrderedRing K] [FloorRing K] [NpFun K] {G : Type}

theorem firstBatch_shuffle {R : Rng K G} {N batch : Nat} {gen : Equiv.Perm (Fin N) → G} (hbig : batch < N)
    (hgen : ∀ σ, (R.choice (gen σ) N batch).1 = (List.ofFn (fun i => (σ i).val)).take batch) (σ : Equiv.Perm (Fin N)) :
    firstBatch R (gen σ) N batch false = List.ofFn (fun i : Fin batch => (σ (Fin.castLE hbig.le i)).val) := by
  unfold firstBatch
  rw [if_neg (by omega), if_neg (by simp), hgen]
  apply List.ext_getElem
  · simp only [List.length_take, List.length_ofFn]; omega
  · intro i h1 h2
    simp only [List.getElem_take, List.getElem_ofFn]
    rfl

/-- C134, without replacement. `gen σ` are states of the tree's generator, one for each shuffle `σ` of the rows of the node, such that
the first batch drawn from `gen σ` are the first `batch` rows of the shuffle. If all shuffles are equally likely, then the chance that
the split returned is worse, on the whole node, than the best candidate by more than `η` is at most
`128 · (number of classes) · (number of candidates) / (batch · η²)`. The bound does not depend on the size of the node. -/
theorem C134_without (R : Rng K G) (glob : Glob G) (junk : Junk K) (row : List K) (rest : List (List K))
    (labels : List K) (minmax : Option (List K × List K)) (d : DiscDict K) (B : Nat)
    (N : Nat) (epsilon : K) (budget : Option Int) (batch : Nat) (hs : Hists K G) (η : K) (hη : 0 < η)
    (gen : Equiv.Perm (Fin N) → G) (out : Equiv.Perm (Fin N) → MabOut K G)
    (hN : (row :: rest).length = N) (hlen : labels.length = N) (hbatch : 0 < batch) (hbig : batch < N)
    (hgen : ∀ σ, (R.choice (gen σ) N batch).1 = (List.ofFn (fun i => (σ i).val)).take batch)
    (hb : BinningOK minmax d (some .linear) B)
    (hmax : ∀ mins maxs, minmax = some (mins, maxs) → ∀ (f : Nat) (hi : K), maxs[f]? = some hi → ∀ x ∈ row :: rest, x.getD f 0 ≤ hi)
    (hmake : makeHistograms R glob.np true (row :: rest) labels minmax d (some .linear) B = .ok hs)
    (h5 : 5 < numCands hs.hists row.length B) (hcls : ∃ y ∈ labels, ∃ y' ∈ labels, y ≠ y')
    (hok : ∀ σ, solveMab R (gen σ) glob junk (row :: rest) labels minmax d (some .linear) (some B) true .gini epsilon false budget batch
      = .ok (out σ)) :
    chance K (fun σ => ¬NearBest .gini (row :: rest) labels hs.hists B η (out σ).split)
      ≤ 128 * (labels.dedup.length : K) * (numCands hs.hists row.length B : K) / ((batch : K) * η ^ 2) := by
  subst hN
  have hg := makeHistograms_good hb hmake
  have hbest := fun σ => (C133_linear R (gen σ) glob junk row rest labels minmax d B .gini epsilon false budget batch (out σ) hs
    (Or.inl rfl) hb hmax hmake h5 hcls (hok σ)).2.2
  have h := chance_far (fair_without (K := K) hbig.le) zero_le_one
    (by rw [sub_pos]; have : 1 < (row :: rest).length := by omega
        exact_mod_cast this) hbatch rfl hlen _ (firstBatch_shuffle hbig hgen) (fun σ => (out σ).split) hbest (half_pos hη)
  rw [hg.len] at h
  have e : 2 * (η / 2) = η := by ring
  rw [e] at h
  refine h.trans_eq ?_
  field_simp
  ring

/-- C134, with replacement: the outcomes are the sequences of `batch` rows, and `gen s` is a state of the tree's generator whose first
batch is the sequence `s`. -/
theorem C134_with (R : Rng K G) (glob : Glob G) (junk : Junk K) (row : List K) (rest : List (List K))
    (labels : List K) (minmax : Option (List K × List K)) (d : DiscDict K) (B : Nat)
    (N : Nat) (epsilon : K) (budget : Option Int) (batch : Nat) (hs : Hists K G) (η : K) (hη : 0 < η)
    (gen : (Fin batch → Fin N) → G) (out : (Fin batch → Fin N) → MabOut K G)
    (hN : (row :: rest).length = N) (hlen : labels.length = N) (hbatch : 0 < batch) (hbig : batch < N)
    (hgen : ∀ s, (R.choiceRep (gen s) N batch).1 = List.ofFn (fun i => (s i).val))
    (hb : BinningOK minmax d (some .linear) B)
    (hmax : ∀ mins maxs, minmax = some (mins, maxs) → ∀ (f : Nat) (hi : K), maxs[f]? = some hi → ∀ x ∈ row :: rest, x.getD f 0 ≤ hi)
    (hmake : makeHistograms R glob.np true (row :: rest) labels minmax d (some .linear) B = .ok hs)
    (h5 : 5 < numCands hs.hists row.length B) (hcls : ∃ y ∈ labels, ∃ y' ∈ labels, y ≠ y')
    (hok : ∀ s, solveMab R (gen s) glob junk (row :: rest) labels minmax d (some .linear) (some B) true .gini epsilon true budget batch
      = .ok (out s)) :
    chance K (fun s => ¬NearBest .gini (row :: rest) labels hs.hists B η (out s).split)
      ≤ 128 * (labels.dedup.length : K) * (numCands hs.hists row.length B : K) / ((batch : K) * η ^ 2) := by
  subst hN
  have hg := makeHistograms_good hb hmake
  have hbest := fun s => (C133_linear R (gen s) glob junk row rest labels minmax d B .gini epsilon true budget batch (out s) hs
    (Or.inl rfl) hb hmax hmake h5 hcls (hok s)).2.2
  have hfirst : ∀ s, firstBatch R (gen s) (row :: rest).length batch true = List.ofFn (fun i : Fin batch => (s i).val) := by
    intro s
    unfold firstBatch
    rw [if_neg (by omega), if_pos rfl, hgen]
  have h := chance_far (fair_with (K := K) batch (row :: rest).length) le_rfl
    (by rw [sub_zero]; have : 0 < (row :: rest).length := by omega
        exact_mod_cast this) hbatch rfl hlen _ hfirst (fun s => (out s).split) hbest (half_pos hη)
  rw [hg.len] at h
  have e : 2 * (η / 2) = η := by ring
  rw [e] at h
  refine h.trans_eq ?_
  field_simp
  ring

/-- C134, a node that is not larger than a batch always gets a best split. -/
theorem C134_small (R : Rng K G) (g : G) (glob : Glob G) (junk : Junk K) (row : List K) (rest : List (List K))
    (labels : List K) (minmax : Option (List K × List K)) (d : DiscDict K) (B : Nat)
    (m : Criterion) (epsilon : K) (withRep : Bool) (budget : Option Int) (batch : Nat) (out : MabOut K G)
    (hs : Hists K G) (hm : CritFits true m) (hlen : labels.length = (row :: rest).length) (hsmall : (row :: rest).length ≤ batch)
    (hb : BinningOK minmax d (some .linear) B)
    (hmax : ∀ mins maxs, minmax = some (mins, maxs) → ∀ (f : Nat) (hi : K), maxs[f]? = some hi → ∀ x ∈ row :: rest, x.getD f 0 ≤ hi)
    (hmake : makeHistograms R glob.np true (row :: rest) labels minmax d (some .linear) B = .ok hs)
    (h5 : 5 < numCands hs.hists row.length B) (hcls : ∃ y ∈ labels, ∃ y' ∈ labels, y ≠ y')
    (hok : solveMab R g glob junk (row :: rest) labels minmax d (some .linear) (some B) true m epsilon withRep budget batch
      = .ok out) :
    NearBest m (row :: rest) labels hs.hists B 0 out.split := by
  have hbest := (C133_linear R g glob junk row rest labels minmax d B m epsilon withRep budget batch out hs
    hm hb hmax hmake h5 hcls hok).2.2
  have h := hbest.near (le_refl (0 : K)) (fun f b v _ => by
    unfold changeOn firstBatch
    rw [if_pos hsmall, nodeSamples_eq (by omega), sub_self, abs_zero])
  rwa [mul_zero] at h

/-! ### C135 -/

/-- C135, partial: if the best candidate lowers the Gini index of the node by more than `η`, then the chance that no split is returned
is at most `128 · (number of classes) · (number of candidates) / (batch · η²)`. Missing: the error probability the caller asks for plays
no part, and the bound is void for small batches or small reductions (`C135_refuted`). -/
theorem C135_partial (R : Rng K G) (glob : Glob G) (junk : Junk K) (row : List K) (rest : List (List K))
    (labels : List K) (minmax : Option (List K × List K)) (d : DiscDict K) (B : Nat)
    (N : Nat) (epsilon : K) (budget : Option Int) (batch : Nat) (hs : Hists K G) (η : K) (hη : 0 < η)
    (gen : Equiv.Perm (Fin N) → G) (out : Equiv.Perm (Fin N) → MabOut K G)
    (hN : (row :: rest).length = N) (hlen : labels.length = N) (hbatch : 0 < batch) (hbig : batch < N)
    (hgen : ∀ σ, (R.choice (gen σ) N batch).1 = (List.ofFn (fun i => (σ i).val)).take batch)
    (hb : BinningOK minmax d (some .linear) B)
    (hmax : ∀ mins maxs, minmax = some (mins, maxs) → ∀ (f : Nat) (hi : K), maxs[f]? = some hi → ∀ x ∈ row :: rest, x.getD f 0 ≤ hi)
    (hmake : makeHistograms R glob.np true (row :: rest) labels minmax d (some .linear) B = .ok hs)
    (h5 : 5 < numCands hs.hists row.length B) (hcls : ∃ y ∈ labels, ∃ y' ∈ labels, y ≠ y')
    (hok : ∀ σ, solveMab R (gen σ) glob junk (row :: rest) labels minmax d (some .linear) (some B) true .gini epsilon false budget batch
      = .ok (out σ))
    (hgood : ∃ f b v, IsCand hs.hists B f b v ∧ change gini (nodeSamples (row :: rest) labels f) v < -η) :
    chance K (fun σ => (out σ).split = none)
      ≤ 128 * (labels.dedup.length : K) * (numCands hs.hists row.length B : K) / ((batch : K) * η ^ 2) := by
  refine (chance_mono (fun σ hσ => ?_)).trans (C134_without R glob junk row rest labels minmax d B N epsilon budget batch hs η hη gen out hN hlen
    hbatch hbig hgen hb hmax hmake h5 hcls hok)
  rw [hσ]
  intro hnear
  obtain ⟨f, b, v, hc, hlt⟩ := hgood
  exact absurd (hnear f b v hc) (not_le.2 hlt)

/-- C135, what goes wrong: if few rows of the node have a label other than `y`, then the batch likely contains none of them, and then
no split is returned, whatever the candidates, the budget and the error probability. -/
theorem C135_rare (R : Rng K G) (glob : Glob G) (junk : Junk K) (row : List K) (rest : List (List K))
    (labels : List K) (minmax : Option (List K × List K)) (d : DiscDict K) (B : Nat)
    (N : Nat) (epsilon : K) (budget : Option Int) (batch : Nat) (hs : Hists K G) (y : K)
    (gen : Equiv.Perm (Fin N) → G) (out : Equiv.Perm (Fin N) → MabOut K G)
    (hN : (row :: rest).length = N) (hlen : labels.length = N) (hbatch : 0 < batch) (hbig : batch < N)
    (hgen : ∀ σ, (R.choice (gen σ) N batch).1 = (List.ofFn (fun i => (σ i).val)).take batch)
    (hb : BinningOK minmax d (some .linear) B)
    (hmax : ∀ mins maxs, minmax = some (mins, maxs) → ∀ (f : Nat) (hi : K), maxs[f]? = some hi → ∀ x ∈ row :: rest, x.getD f 0 ≤ hi)
    (hmake : makeHistograms R glob.np true (row :: rest) labels minmax d (some .linear) B = .ok hs)
    (h5 : 5 < numCands hs.hists row.length B) (hcls : ∃ y ∈ labels, ∃ y' ∈ labels, y ≠ y')
    (hok : ∀ σ, solveMab R (gen σ) glob junk (row :: rest) labels minmax d (some .linear) (some B) true .gini epsilon false budget batch
      = .ok (out σ)) :
    1 - (batch : K) * ((labels.length - labels.count y : Nat) : K) / (N : K)
      ≤ chance K (fun σ => (out σ).split = none) := by
  subst hN
  have hbest := fun σ => (C133_linear R (gen σ) glob junk row rest labels minmax d B .gini epsilon false budget batch (out σ) hs
    (Or.inl rfl) hb hmax hmake h5 hcls (hok σ)).2.2
  exact chance_blind (fair_without (K := K) hbig.le) hbatch (by simp) hlen _ (firstBatch_shuffle hbig hgen) (fun σ => (out σ).split)
    hbest y

/-- `numVarying` of the rows of the counterexample. -/
theorem rare_varying (n : Nat) (hn : 0 < n) : numVarying (([1] : List K) :: rareRows K n) ([1] : List K).length = 1 := by
  unfold numVarying rareRows
  have : List.range ([1] : List K).length = [0] := rfl
  rw [this, List.filter_cons, if_pos]
  · rfl
  · simp only [decide_eq_true_eq]
    refine ⟨[1], List.mem_cons_self, [0], List.mem_cons_of_mem _ (List.mem_replicate.2 ⟨by omega, rfl⟩), ?_⟩
    simp

theorem rare_minmax (n : Nat) (hn : 0 < n) {lo hi : K}
    (h1 : npMin ((([1] : List K) :: rareRows K n).map (fun r => r.getD 0 0)) = some lo)
    (h2 : npMax ((([1] : List K) :: rareRows K n).map (fun r => r.getD 0 0)) = some hi) : lo = 0 ∧ hi = 1 := by
  have e : (([1] : List K) :: rareRows K n).map (fun r => r.getD 0 0) = 1 :: List.replicate n 0 := by simp [rareRows]
  rw [e] at h1 h2
  have hm1 := npMin_mem h1
  have hm2 := npMax_mem h2
  have l1 := npMin_le h1 (List.mem_cons_of_mem _ (List.mem_replicate.2 ⟨by omega, rfl⟩) : (0 : K) ∈ 1 :: List.replicate n 0)
  have l2 := le_npMax h2 (List.mem_cons_self : (1 : K) ∈ 1 :: List.replicate n 0)
  simp only [List.mem_cons, List.mem_replicate] at hm1 hm2
  constructor
  · rcases hm1 with rfl | ⟨_, rfl⟩
    · exact absurd l1 (by norm_num)
    · rfl
  · rcases hm2 with rfl | ⟨_, rfl⟩
    · rfl
    · exact absurd l2 (by norm_num)

/-- The threshold 0 separates the two classes. -/
theorem rare_change (n : Nat) (hn : 0 < n) :
    change gini (nodeSamples (([1] : List K) :: rareRows K n) (rareLabels K n) 0) 0 = -gini (rareLabels K n) := by
  have e : nodeSamples (([1] : List K) :: rareRows K n) (rareLabels K n) 0 = (1, 1) :: List.replicate n (0, 0) := by
    simp [nodeSamples, batchSamples, rareRows, rareLabels]
  have hL : labelsLe ((1, 1) :: List.replicate n ((0 : K), (0 : K))) 0 = List.replicate n 0 := by
    unfold labelsLe
    rw [List.filter_cons, if_neg (by norm_num), List.filter_replicate, if_pos (by norm_num)]
    simp
  have hR : labelsGt ((1, 1) :: List.replicate n ((0 : K), (0 : K))) 0 = [1] := by
    unfold labelsGt
    rw [List.filter_cons, if_pos (by norm_num), List.filter_replicate, if_neg (by norm_num)]
    simp
  have g1 : gini (List.replicate n (0 : K)) = 0 :=
    (gini_eq_zero_iff (by intro h; rw [List.replicate_eq_nil_iff] at h; omega)).2 ⟨0, fun y hy => (List.mem_replicate.1 hy).2⟩
  have g2 : gini ([1] : List K) = 0 := (gini_eq_zero_iff (by simp)).2 ⟨1, by simp⟩
  rw [e]
  unfold change
  rw [hL, hR, g1, g2]
  have : ((1, 1) :: List.replicate n ((0 : K), (0 : K))).map Prod.snd = rareLabels K n := by simp [rareLabels]
  rw [this]
  ring

theorem gini_ge_zero (ys : List K) : 0 ≤ gini ys := by
  by_cases h : ys = []
  · subst h; simp [gini]
  · exact gini_nonneg h

/-- No split lowers the Gini index by more than it is. -/
theorem change_gini_ge (X : List (K × K)) (t : K) : -gini (X.map Prod.snd) ≤ change gini X t := by
  unfold change
  have h1 := gini_ge_zero (labelsLe X t)
  have h2 := gini_ge_zero (labelsGt X t)
  have : 0 ≤ ((labelsLe X t).length : K) / (X.length : K) * gini (labelsLe X t) := by positivity
  have : 0 ≤ ((labelsGt X t).length : K) / (X.length : K) * gini (labelsGt X t) := by positivity
  linarith

theorem rare_binning {B : Nat} (hB : 6 ≤ B) : BinningOK (K := K) none none (some .linear) B :=
  ⟨by simp, by simp [discLookup], by simp; omega, by simp⟩

theorem rare_rect (n : Nat) : ∀ r ∈ rareRows K n, r.length = ([1] : List K).length := by
  intro r hr
  rw [(List.mem_replicate.1 hr).2]
  rfl

/-- `solve_mab` succeeds on the node of the counterexample. -/
theorem rare_runs {Ω : Type} (R : Rng K G) (n batch B : Nat) (glob : Glob G) (junk : Junk K) (epsilon : K) (withRep : Bool)
    (budget : Option Int) (hbatch : 0 < batch) (hn : 0 < n) (hB : 6 ≤ B) (gen : Ω → G) :
    ∃ (hs : Hists K G) (out : Ω → MabOut K G),
      makeHistograms R glob.np true ([1] :: rareRows K n) (rareLabels K n) none none (some .linear) B = .ok hs ∧
      5 < numCands hs.hists ([1] : List K).length B ∧
      ∀ ω, solveMab R (gen ω) glob junk ([1] :: rareRows K n) (rareLabels K n) none none (some .linear) (some B) true .gini epsilon withRep
        budget batch = .ok (out ω) := by
  have hlenL : (rareLabels K n).length = (([1] : List K) :: rareRows K n).length := by simp [rareLabels, rareRows]
  have hok : ∀ ω, ∃ o, solveMab R (gen ω) glob junk ([1] :: rareRows K n) (rareLabels K n) none none (some .linear) (some B) true .gini
      epsilon withRep budget batch = .ok o := fun ω =>
    C27_mab_linear_partial R (gen ω) glob junk [1] (rareRows K n) (rareLabels K n) none B true .gini epsilon withRep budget batch
      (Or.inl rfl) (by simp) (rare_binning hB) (rare_rect n) hlenL hbatch (by rw [rare_varying n hn]; omega)
  obtain ⟨hs, hmake⟩ := makeHistograms_total (R := R) (g := glob.np) (isCls := true) (labels := rareLabels K n) (d := none)
    (B := B) (row := [1]) (rest := rareRows K n) (by simp) (fun r hr => (rare_rect n r hr).ge) (minmax := none) (by simp) (t := .linear)
  choose out hout using hok
  exact ⟨hs, out, hmake,
    lt_of_lt_of_le (by rw [rare_varying n hn]; omega) (numCands_linear_ge (rare_binning hB) hmake), hout⟩

/-- C135 is false. A node of `n + 1` rows with one row of another label, which the exact solver always splits into pure children; with
MABSplit no split is returned in a share of at least `1 - batch/(n + 1)` of the outcomes, whatever the batch size, the number of bins,
the budget and the error probability asked for. -/
theorem C135_refuted (R : Rng K G) (n batch B : Nat) (glob : Glob G) (junk : Junk K) (g : G) (epsilon : K) (budget : Option Int)
    (hbatch : 0 < batch) (hbig : batch < n + 1) (hB : 6 ≤ B) (gen : Equiv.Perm (Fin (n + 1)) → G)
    (hgen : ∀ σ, (R.choice (gen σ) (n + 1) batch).1 = (List.ofFn (fun i => (σ i).val)).take batch) :
    (∃ r nq g', solveExactly R g junk.est ([1] :: rareRows K n) (rareLabels K n) none none (some .linear) (some B) true .gini
      = .ok (some r, nq, g') ∧ r.red = .fin (-gini (rareLabels K n)) ∧ 0 < gini (rareLabels K n)) ∧
    ∃ out : Equiv.Perm (Fin (n + 1)) → MabOut K G,
      (∀ σ, solveMab R (gen σ) glob junk ([1] :: rareRows K n) (rareLabels K n) none none (some .linear) (some B) true .gini epsilon false
        budget batch = .ok (out σ)) ∧
      1 - (batch : K) / ((n + 1 : Nat) : K) ≤ chance K (fun σ => (out σ).split = none) := by
  have hn : 0 < n := by omega
  have hlenR : (rareRows K n).length = n := by simp [rareRows]
  have hlenL : (rareLabels K n).length = (([1] : List K) :: rareRows K n).length := by simp [rareLabels, rareRows]
  have hb : BinningOK (K := K) none none (some .linear) B := rare_binning hB
  have hrect := rare_rect (K := K) n
  have hmem0 : ([0] : List K) ∈ rareRows K n := List.mem_replicate.2 ⟨by omega, rfl⟩
  have hcls : ∃ y ∈ rareLabels K n, ∃ y' ∈ rareLabels K n, y ≠ y' :=
    ⟨1, List.mem_cons_self, 0, List.mem_cons_of_mem _ (List.mem_replicate.2 ⟨by omega, rfl⟩), one_ne_zero⟩
  have hgini : 0 < gini (rareLabels K n) := by
    have hne : rareLabels K n ≠ [] := by simp [rareLabels]
    refine lt_of_le_of_ne (gini_nonneg hne) (fun h => ?_)
    obtain ⟨c, hc⟩ := (gini_eq_zero_iff hne).1 h.symm
    obtain ⟨y, hy, y', hy', hne'⟩ := hcls
    exact hne' ((hc y hy).trans (hc y' hy').symm)
  have hcand : ∀ (g : G) (hs : Hists K G),
      makeHistograms R g true (([1] : List K) :: rareRows K n) (rareLabels K n) none none (some .linear) B = .ok hs →
      IsCand hs.hists B 0 0 0 := by
    intro g hs hmake
    obtain ⟨lo, hi, h1, _, he⟩ := (C13_candidates_linear R g true [1] (rareRows K n) (rareLabels K n) none none B hs hb hmake).2 0 (by simp)
    obtain ⟨rfl, rfl⟩ := rare_minmax n hn (h1 rfl).1 (h1 rfl).2
    refine ⟨?_, by omega⟩
    rw [he, if_neg (by norm_num), List.getElem?_map, List.getElem?_range (by omega)]
    simp
  refine ⟨?_, ?_⟩
  · obtain ⟨r, nq, g', hex⟩ := C27_exact_linear_partial R g junk.est [1] (rareRows K n) (rareLabels K n) none B true .gini (Or.inl rfl)
      (by simp) hb (by omega) hrect hlenL ⟨0, by simp, [1], List.mem_cons_self, [0], List.mem_cons_of_mem _ hmem0, by simp⟩
    have hbB : ∀ B', exactBins (([1] : List K) :: rareRows K n) (some .linear) (some B) = some B' →
        BinningOK (K := K) none none (some .linear) B' := by
      intro B' hB'
      simp [exactBins] at hB'
      rw [← hB']
      exact hb
    cases r with
    | none =>
      obtain ⟨B', hs, hbins, hmake, hall⟩ := C15_no_split R g g' junk.est _ _ none none (some .linear) (some B) true .gini nq (Or.inl rfl)
        hbB hex
      simp [exactBins] at hbins
      subst hbins
      have := hall 0 0 0 (hcand g hs hmake)
      rw [show critImp (K := K) .gini = gini from rfl, rare_change n hn] at this
      linarith
    | some r =>
      obtain ⟨B', hs, b, hbins, hmake, hc, hred, _, hall⟩ := C13_exact_best R g g' junk.est _ _ none none (some .linear) (some B) true .gini r nq
        (Or.inl rfl) hbB hex
      simp [exactBins] at hbins
      subst hbins
      refine ⟨r, nq, g', hex, ?_, hgini⟩
      rw [hred]
      congr 1
      have h1 := (hall 0 0 0 (hcand g hs hmake)).1
      rw [show critImp (K := K) .gini = gini from rfl, rare_change n hn] at h1
      refine le_antisymm h1 ?_
      have h2 := change_gini_ge (nodeSamples (([1] : List K) :: rareRows K n) (rareLabels K n) r.feat) r.value
      have h3 : (nodeSamples (([1] : List K) :: rareRows K n) (rareLabels K n) r.feat).map Prod.snd = rareLabels K n := by
        unfold nodeSamples batchSamples
        exact List.map_snd_zip (by simp [rareLabels, rareRows])
      rw [h3] at h2
      exact h2
  · obtain ⟨hs, out, hmake, h5, hout⟩ := rare_runs R n batch B glob junk epsilon false budget hbatch hn hB gen
    refine ⟨out, hout, ?_⟩
    have hN : (([1] : List K) :: rareRows K n).length = n + 1 := by simp [rareRows]
    have hcount : (rareLabels K n).length - (rareLabels K n).count 0 = 1 := by
      simp [rareLabels]
    have h := C135_rare R glob junk [1] (rareRows K n) (rareLabels K n) none none B (n + 1) epsilon budget batch hs 0 gen out hN
      (hlenL.trans hN) hbatch hbig hgen hb (by simp) hmake h5 hcls hout
    rw [hcount, Nat.cast_one, mul_one] at h
    exact h

/-! ### The hypotheses can be met -/

/-- A generator whose state is the list of rows it draws next. -/
def rngList (K : Type) [Field K] [LinearOrder K] : Rng K (List Nat) where
  seed n := [n]
  choice g n k := (if g.Perm (List.range n) then g.take k else List.range k, g)
  choiceRep g n k := (if g.length = k ∧ ∀ i ∈ g, i < n then g else List.replicate k 0, g)
  randint g _ := (0, g)
  uniform g lo _ k := (List.replicate k lo, g)
  pyChoice g _ := (0, g)
  shuffle g n := (List.range n, g)
  choice_length g n k h := by
    split_ifs with hp
    · rw [List.length_take, hp.length_eq, List.length_range]; omega
    · simp
  choice_nodup g n k h := by
    split_ifs with hp
    · exact ((hp.nodup_iff.2 List.nodup_range).sublist (List.take_sublist _ _))
    · exact List.nodup_range
  choice_lt g n k h i hi := by
    split_ifs at hi with hp
    · exact List.mem_range.1 (hp.mem_iff.1 (List.mem_of_mem_take hi))
    · exact lt_of_lt_of_le (List.mem_range.1 hi) h
  choiceRep_length g n k h := by
    split_ifs with hp
    · exact hp.1
    · simp
  choiceRep_lt g n k h i hi := by
    split_ifs at hi with hp
    · exact hp.2 i hi
    · rw [(List.mem_replicate.1 hi).2]; exact h
  randint_lt _ _ h := h
  uniform_length _ _ _ _ := by simp
  uniform_mem g lo hi k h x hx := by
    rw [(List.mem_replicate.1 hx).2]
    exact ⟨le_refl _, h⟩
  pyChoice_lt _ _ h := h
  shuffle_perm _ _ := List.Perm.refl _

theorem rngList_choice {N batch : Nat} (σ : Equiv.Perm (Fin N)) :
    ((rngList K).choice (List.ofFn (fun i => (σ i).val)) N batch).1 = (List.ofFn (fun i => (σ i).val)).take batch := by
  have : (List.ofFn (fun i => (σ i).val)).Perm (List.range N) := by
    have h1 := (Equiv.Perm.ofFn_comp_perm σ (fun i : Fin N => i.val))
    have h2 : List.ofFn (fun i : Fin N => i.val) = List.range N := by apply List.ext_getElem <;> simp
    rw [h2] at h1
    exact h1
  exact if_pos this

theorem rngList_choiceRep {N batch : Nat} (s : Fin batch → Fin N) :
    ((rngList K).choiceRep (List.ofFn (fun i => (s i).val)) N batch).1 = List.ofFn (fun i => (s i).val) := by
  refine if_pos ⟨by simp, fun i hi => ?_⟩
  obtain ⟨j, rfl⟩ := List.mem_ofFn.1 hi
  exact (s j).2

/-- The hypotheses of C134 and C135 are met for every size of the node and of the batch. -/
example (n batch B : Nat) (hbatch : 0 < batch) (hbig : batch < n + 1) (hB : 6 ≤ B) (glob : Glob (List Nat)) (junk : Junk ℚ) :
    (([1] : List ℚ) :: rareRows ℚ n).length = n + 1 ∧ (rareLabels ℚ n).length = n + 1 ∧
    (∀ σ : Equiv.Perm (Fin (n + 1)), ((rngList ℚ).choice (List.ofFn (fun i => (σ i).val)) (n + 1) batch).1
      = (List.ofFn (fun i => (σ i).val)).take batch) ∧
    BinningOK (K := ℚ) none none (some .linear) B ∧ (∃ y ∈ rareLabels ℚ n, ∃ y' ∈ rareLabels ℚ n, y ≠ y') ∧
    ∃ (hs : Hists ℚ (List Nat)) (out : Equiv.Perm (Fin (n + 1)) → MabOut ℚ (List Nat)),
      makeHistograms (rngList ℚ) glob.np true ([1] :: rareRows ℚ n) (rareLabels ℚ n) none none (some .linear) B = .ok hs ∧
      5 < numCands hs.hists ([1] : List ℚ).length B ∧
      ∀ σ, solveMab (rngList ℚ) (List.ofFn (fun i => (σ i).val)) glob junk ([1] :: rareRows ℚ n) (rareLabels ℚ n) none none (some .linear)
        (some B) true .gini (1 / 100) false none batch = .ok (out σ) :=
  ⟨by simp [rareRows], by simp [rareLabels], rngList_choice, rare_binning hB,
    ⟨1, List.mem_cons_self, 0, List.mem_cons_of_mem _ (List.mem_replicate.2 ⟨by omega, rfl⟩), one_ne_zero⟩,
    rare_runs (rngList ℚ) n batch B glob junk (1 / 100) false none hbatch (by omega) hB _⟩

/-- With 1000 rows in the batch, a node of a million rows with one row of another label is left unsplit in 99.9 % of the outcomes. -/
example (glob : Glob (List Nat)) (junk : Junk ℚ) :
    ∃ out : Equiv.Perm (Fin (999999 + 1)) → MabOut ℚ (List Nat),
      (∀ σ, solveMab (rngList ℚ) (List.ofFn (fun i => (σ i).val)) glob junk ([1] :: rareRows ℚ 999999) (rareLabels ℚ 999999) none none
        (some .linear) (some 10) true .gini (1 / 100) false none 1000 = .ok (out σ)) ∧
      999 / 1000 ≤ chance ℚ (fun σ => (out σ).split = none) := by
  obtain ⟨_, out, h1, h2⟩ := C135_refuted (rngList ℚ) 999999 1000 10 glob junk [] (1 / 100) none (by norm_num) (by norm_num) (by norm_num)
    (fun σ => List.ofFn (fun i => (σ i).val)) rngList_choice
  refine ⟨out, h1, le_trans ?_ h2⟩
  norm_num

end FF
