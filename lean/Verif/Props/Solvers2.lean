import Verif.Proofs.MabRound

/-!
# Properties C21, C23, C24, C25 and the bandit part of C27
-/

namespace FF

open Spec

set_option linter.unusedSectionVars false

variable {K : Type} [Field K] [LinearOrder K] [IsStrictOrderedRing K] [FloorRing K] [NpFun K] {G : Type}

/-! ### C21 -/

/-- C21. With a batch at least as large as the node and more than five candidates, `solve_mab` finds the same best reduction as
`solve_exactly`, returns a split exactly when `solve_exactly` does, and makes the same number of queries. With and without
replacement, for any budget and any contents of uninitialised arrays. -/
theorem C21_equals_exact (R : Rng K G) (g : G) (glob : Glob G) (junk : Junk K) (junk' : Mat K) (row : List K)
    (rest : List (List K)) (labels : List K) (minmax : Option (List K × List K)) (d : DiscDict K) (binType : Option BinType)
    (B : Nat) (isCls : Bool) (m : Criterion) (epsilon : K) (withRep : Bool) (budget : Option Int) (batch : Nat)
    (out : MabOut K G) (hs : Hists K G) (r : Option (SplitRes K)) (nq : Nat) (g' : G)
    (hm : CritFits isCls m) (hb : BinningOK minmax d binType B) (hbatch : (row :: rest).length ≤ batch)
    (hmake : makeHistograms R glob.np isCls (row :: rest) labels minmax d binType B = .ok hs)
    (h5 : 5 < numCands hs.hists row.length B)
    (hok : solveMab R g glob junk (row :: rest) labels minmax d binType (some B) isCls m epsilon withRep budget batch = .ok out)
    (hex : solveExactly R glob.np junk' (row :: rest) labels minmax d binType (some B) isCls m = .ok (r, nq, g')) :
    out.total = nq ∧ (out.split.isSome ↔ r.isSome) ∧ out.split.map (·.red) = r.map (·.red) := by
  obtain ⟨row', rest', B', hs', s0, hdata, hB, hid, hmake', hinit, hloop, hfin⟩ := solveMab_parts hok
  cases hdata
  cases hB
  rw [hmake] at hmake'
  cases hmake'
  have hbins : exactBins (row :: rest) binType (some B) = some B := by
    unfold exactBins
    rw [if_neg hid]
  obtain ⟨row', rest', B', hs', arm, hdata, hrun⟩ := solveExactly_run hm (fun B' hB' => by
    rw [hbins] at hB'; cases hB'; exact hb) hex
  cases hdata
  have hBB := hrun.bins
  rw [hbins] at hBB
  cases hBB
  have hm2 := hrun.make
  rw [hmake] at hm2
  cases hm2
  have hg := hrun.good
  have h5' := lt_of_lt_of_le h5 hg.numCands_le
  have hin : ∀ a ∈ candArms row.length B hs, a ∈ allArms row.length B := fun a ha => mem_allArms.2 (hrun.inside a ha)
  have hi := MabInv.init (m := m) hg hmake hinit
  obtain ⟨n, hruns⟩ := mabLoop_ok_runs _ _ hloop
  obtain ⟨I, hI⟩ := hi.visited hm hb (by simp) hg hruns.visited
  have hfull := full_final hm hb (by simp) hg hmake hinit h5' hin hbatch hruns
  obtain ⟨arm', hc', hbest', hsplit⟩ := full_finish hm hb hg hI hfull hin (List.ne_nil_of_mem hrun.arm_mem) hfin
  have heq : armChange (row :: rest) labels (edgesOf hs.hists) m arm' = armChange (row :: rest) labels (edgesOf hs.hists) m arm :=
    le_antisymm (hbest' _ hrun.arm_mem) (hrun.best _ hc')
  obtain ⟨_, _, _, _, _, htot, _, _⟩ := mabFinish_ok hfin
  refine ⟨by rw [htot, hfull.total, hrun.nq_eq], ?_, ?_⟩
  · rw [hsplit, hrun.result, heq]
    split <;> simp
  · rw [hsplit, hrun.result, heq]
    split <;> simp

example :
    ((solveMab rngQ 0 ⟨0, 0⟩ junkQ [[0, 1], [1, 1], [2, 5], [3, 5], [4, 2], [5, 2]] [0, 0, 1, 1, 0, 1] none none
      (some .linear) (some 4) true .gini 0 false none 6).map (fun o => (o.total, o.split))).toOption
      = some (12, some ⟨0, 5 / 3, .fin (-1 / 4)⟩) ∧
    ((solveMab rngQ 0 ⟨0, 0⟩ junkQ [[0, 1], [1, 1], [2, 5], [3, 5], [4, 2], [5, 2]] [0, 0, 1, 1, 0, 1] none none
      (some .linear) (some 4) true .gini 0 true (some 3) 7).map (fun o => (o.total, o.split))).toOption
      = some (12, some ⟨0, 5 / 3, .fin (-1 / 4)⟩) ∧
    (solveExactly rngQ 0 (fun _ => .nan) [[0, 1], [1, 1], [2, 5], [3, 5], [4, 2], [5, 2]] [0, 0, 1, 1, 0, 1] none none
      (some .linear) (some 4) true .gini).toOption = some (some ⟨0, 5 / 3, .fin (-1 / 4)⟩, 12, 0) := by
  refine ⟨?_, ?_, ?_⟩ <;> decide +kernel

/-! ### C27, bandit solver -/

theorem HistsGood.cands_inside {R : Rng K G} {isCls : Bool} {data : List (List K)} {classes : List K}
    {minmax : Option (List K × List K)} {d : DiscDict K} {t : BinType} {F B : Nat} {hs : Hists K G}
    (hg : HistsGood R isCls data classes minmax d (some t) F B hs) (ht : t ≠ .discrete) (hid : t ≠ .identity) :
    ∀ a ∈ candArms F B hs, a ∈ allArms F B := by
  intro a ha
  have := hg.cands_valid a ha
  exact mem_allArms.2 ⟨this.1, lt_of_lt_of_le this.2 (hg.edges_le ht (fun h => absurd h hid) _)⟩

/-- C27 for `solve_mab` with LINEAR or RANDOM bins: on a rectangular node with one label per row and more than five candidates
it never raises, whatever is drawn and whatever the uninitialised arrays contain. -/
theorem C27_mab_partial (R : Rng K G) (g : G) (glob : Glob G) (junk : Junk K) (row : List K)
    (rest : List (List K)) (labels : List K) (minmax : Option (List K × List K)) (d : DiscDict K) (t : BinType)
    (B : Nat) (isCls : Bool) (m : Criterion) (epsilon : K) (withRep : Bool) (budget : Option Int) (batch : Nat)
    (hs : Hists K G) (hm : CritFits isCls m) (hent : m = .entropy → labels.dedup.length ≤ 2)
    (hb : BinningOK minmax d (some t) B) (ht : t ≠ .discrete) (hid : t ≠ .identity)
    (hrect : ∀ r ∈ rest, r.length = row.length) (hlab : labels.length = (row :: rest).length) (hbatch : 0 < batch)
    (hmake : makeHistograms R glob.np isCls (row :: rest) labels minmax d (some t) B = .ok hs)
    (h5 : 5 < numCands hs.hists row.length B) :
    ∃ out, solveMab R g glob junk (row :: rest) labels minmax d (some t) (some B) isCls m epsilon withRep budget batch
      = .ok out := by
  have hg := makeHistograms_good hb hmake
  refine solveMab_succeeds g glob junk rfl ⟨by simp, ?_, hlab.ge, hent⟩ hm hb (by simpa using hid) hbatch hmake
    (hg.cands_inside ht hid) h5
  intro r hr
  rw [List.mem_cons] at hr
  rcases hr with rfl | hr
  · exact le_refl _
  · exact (hrect r hr).ge

theorem sum_ge_filter (l : List Nat) (p : Nat → Bool) (f : Nat → Nat) (B : Nat) (h : ∀ x ∈ l, p x = true → B ≤ f x) :
    B * (l.filter p).length ≤ (l.map f).sum := by
  induction l with
  | nil => simp
  | cons x xs ih =>
    have ih' := ih (fun y hy => h y (List.mem_cons_of_mem _ hy))
    have hx := h x List.mem_cons_self
    rw [List.filter_cons, List.map_cons, List.sum_cons]
    split
    · next hp =>
      have := hx hp
      rw [List.length_cons, Nat.mul_add, Nat.mul_one]
      omega
    · omega

theorem numCands_linear_ge {R : Rng K G} {g : G} {isCls : Bool} {row : List K} {rest : List (List K)} {labels : List K} {d : DiscDict K}
    {B : Nat} {hs : Hists K G} (hb : BinningOK none d (some .linear) B)
    (hmake : makeHistograms R g isCls (row :: rest) labels none d (some .linear) B = .ok hs) :
    B * numVarying (row :: rest) row.length ≤ numCands hs.hists row.length B := by
  unfold numVarying numCands
  apply sum_ge_filter
  intro f hf hv
  rw [List.mem_range] at hf
  simp only [decide_eq_true_eq] at hv
  obtain ⟨x, hx, y, hy, hxy⟩ := hv
  obtain ⟨lo, hi, h1, _, he⟩ := (C13_candidates_linear R g isCls row rest labels none d B hs hb hmake).2 f hf
  rw [he, if_neg]
  · simp
  · rintro rfl
    obtain ⟨h2, h3⟩ := h1 rfl
    have key : ∀ z ∈ row :: rest, z.getD f 0 = lo := by
      intro z hz
      have hz' : z.getD f 0 ∈ (row :: rest).map (fun r => r.getD f 0) := List.mem_map.2 ⟨z, hz, rfl⟩
      exact le_antisymm (le_npMax h3 hz') (npMin_le h2 hz')
    exact hxy ((key x hx).trans (key y hy).symm)

/-- C27 for `solve_mab` with LINEAR bins: it never raises if the features that vary in the node give more than five candidates
(for instance six bins and one varying feature). -/
theorem C27_mab_linear_partial (R : Rng K G) (g : G) (glob : Glob G) (junk : Junk K) (row : List K)
    (rest : List (List K)) (labels : List K) (d : DiscDict K) (B : Nat) (isCls : Bool) (m : Criterion) (epsilon : K)
    (withRep : Bool) (budget : Option Int) (batch : Nat)
    (hm : CritFits isCls m) (hent : m = .entropy → labels.dedup.length ≤ 2)
    (hb : BinningOK none d (some .linear) B)
    (hrect : ∀ r ∈ rest, r.length = row.length) (hlab : labels.length = (row :: rest).length) (hbatch : 0 < batch)
    (h5 : 5 < B * numVarying (row :: rest) row.length) :
    ∃ out, solveMab R g glob junk (row :: rest) labels none d (some .linear) (some B) isCls m epsilon withRep budget batch
      = .ok out := by
  obtain ⟨hs, hmake⟩ := makeHistograms_total (R := R) (g := glob.np) (isCls := isCls) (labels := labels) (d := d)
    (B := B) (by simp) (fun r hr => (hrect r hr).ge) (minmax := none) (by simp) (t := .linear)
  exact C27_mab_partial R g glob junk row rest labels none d .linear B isCls m epsilon withRep budget batch hs hm hent hb
    (by simp) (by simp) hrect hlab hbatch hmake (lt_of_lt_of_le h5 (numCands_linear_ge hb hmake))

theorem numCands_random_ge {R : Rng K G} {g : G} {isCls : Bool} {row : List K} {rest : List (List K)} {labels : List K} {d : DiscDict K}
    {B : Nat} {hs : Hists K G} (hb : BinningOK none d (some .random) B)
    (hmake : makeHistograms R g isCls (row :: rest) labels none d (some .random) B = .ok hs) :
    B * row.length ≤ numCands hs.hists row.length B := by
  have := sum_ge_filter (List.range row.length) (fun _ => true) (fun f => min B (edgesOf hs.hists f).length) B (by
    intro f hf _
    rw [List.mem_range] at hf
    obtain ⟨_, _, _, _, hl, _⟩ := (C13_candidates_random R g isCls row rest labels none d B hs hb hmake).2 f hf
    simp only [hl, min_self, le_refl])
  simpa [numCands] using this

/-- C27 for `solve_mab` with RANDOM bins: it never raises if the number of bins times the number of features exceeds five. -/
theorem C27_mab_random_partial (R : Rng K G) (g : G) (glob : Glob G) (junk : Junk K) (row : List K)
    (rest : List (List K)) (labels : List K) (d : DiscDict K) (B : Nat) (isCls : Bool) (m : Criterion) (epsilon : K)
    (withRep : Bool) (budget : Option Int) (batch : Nat)
    (hm : CritFits isCls m) (hent : m = .entropy → labels.dedup.length ≤ 2)
    (hb : BinningOK none d (some .random) B)
    (hrect : ∀ r ∈ rest, r.length = row.length) (hlab : labels.length = (row :: rest).length) (hbatch : 0 < batch)
    (h5 : 5 < B * row.length) :
    ∃ out, solveMab R g glob junk (row :: rest) labels none d (some .random) (some B) isCls m epsilon withRep budget batch
      = .ok out := by
  obtain ⟨hs, hmake⟩ := makeHistograms_total (R := R) (g := glob.np) (isCls := isCls) (labels := labels) (d := d)
    (B := B) (by simp) (fun r hr => (hrect r hr).ge) (minmax := none) (by simp) (t := .random)
  exact C27_mab_partial R g glob junk row rest labels none d .random B isCls m epsilon withRep budget batch hs hm hent hb
    (by simp) (by simp) hrect hlab hbatch hmake (lt_of_lt_of_le h5 (numCands_random_ge hb hmake))

/-- The hypotheses of `C27_mab_linear_partial` on a concrete node. -/
example : BinningOK (K := ℚ) none none (some .linear) 4 ∧
    5 < 4 * numVarying (K := ℚ) [[0, 1], [1, 1], [2, 5], [3, 5], [4, 2], [5, 2]] 2 := by
  refine ⟨⟨by simp, by simp [discLookup], by simp, by simp⟩, by decide +kernel⟩

/-- With at most five candidates `solve_mab` never samples, and a node whose uninitialised array happens to contain only NaN
makes it raise. -/
theorem C27_few_candidates_refuted :
    (solveMab rngQ 0 ⟨0, 0⟩ ⟨fun _ => .nan, fun _ => .nan, fun _ => .nan⟩ [[0], [1]] [0, 1] none none (some .linear) (some 3)
      true .gini 0 false none 2).map (fun o => o.total) = .error .indexError := by
  decide +kernel

/-! ### C23 -/

/-- C23 when there are more than five candidates: the outcome does not depend on what the uninitialised arrays contain. -/
theorem C23_junk_independent_partial (R : Rng K G) (g : G) (glob : Glob G) (junk junk' : Junk K) (row : List K)
    (rest : List (List K)) (labels : List K) (minmax : Option (List K × List K)) (d : DiscDict K) (binType : Option BinType)
    (B : Nat) (isCls : Bool) (m : Criterion) (epsilon : K) (withRep : Bool) (budget : Option Int) (batch : Nat)
    (hs : Hists K G) (hb : BinningOK minmax d binType B)
    (hmake : makeHistograms R glob.np isCls (row :: rest) labels minmax d binType B = .ok hs)
    (h5 : 5 < numCands hs.hists row.length B) :
    solveMab R g glob junk (row :: rest) labels minmax d binType (some B) isCls m epsilon withRep budget batch =
      solveMab R g glob junk' (row :: rest) labels minmax d binType (some B) isCls m epsilon withRep budget batch := by
  have hg := makeHistograms_good hb hmake
  obtain ⟨s, hinit⟩ := mabInit_total (withRep := withRep) hg (row :: rest).length junk g
  obtain ⟨s', hinit'⟩ := mabInit_total (withRep := withRep) hg (row :: rest).length junk' g
  have h5' := lt_of_lt_of_le h5 hg.numCands_le
  have hc : 5 < s.cands.length := by rw [(mabInit_ok hinit).2.1]; exact h5'
  have hc' : 5 < s'.cands.length := by rw [(mabInit_ok hinit').2.1]; exact h5'
  have hstep := step_same (R := R) (labels := labels) (m := m) (epsilon := epsilon) (budget := budget) (batch := batch)
    (by simp) hg hinit hc hinit'
  have hloop : mabLoop R row.length B (row :: rest) labels m epsilon withRep budget batch
        (mabFuel row.length B (row :: rest).length) s =
      mabLoop R row.length B (row :: rest) labels m epsilon withRep budget batch
        (mabFuel row.length B (row :: rest).length) s' := by
    unfold mabFuel
    simp only [mabLoop]
    rw [if_pos hc, if_pos hc', hstep]
  unfold solveMab
  simp only [hmake, hinit, hinit', hloop]

/-- C23 is false with five candidates or fewer: no arm is ever sampled, and the split returned is read from the uninitialised
array. -/
theorem C23_refuted :
    ((solveMab rngQ 0 ⟨0, 0⟩ ⟨fun a => .fin (if a = (0, 0) then -1 else 0), fun _ => .fin 0, fun _ => .fin 0⟩ [[0], [1]] [0, 1]
      none none (some .linear) (some 3) true .gini 0 false none 2).map (fun o => o.split)).toOption
      = some (some ⟨0, 0, .fin (-1)⟩) ∧
    ((solveMab rngQ 0 ⟨0, 0⟩ ⟨fun a => .fin (if a = (0, 1) then -7 else 0), fun _ => .fin 0, fun _ => .fin 0⟩ [[0], [1]] [0, 1]
      none none (some .linear) (some 3) true .gini 0 false none 2).map (fun o => o.split)).toOption
      = some (some ⟨0, 1 / 2, .fin (-7)⟩) ∧
    ((solveMab rngQ 0 ⟨0, 0⟩ ⟨fun _ => .fin 1, fun _ => .fin 0, fun _ => .fin 0⟩ [[0], [1]] [0, 1]
      none none (some .linear) (some 3) true .gini 0 false none 2).map (fun o => o.split)).toOption
      = some none := by
  refine ⟨?_, ?_, ?_⟩ <;> decide +kernel

/-! ### C24 -/

/-- C24, first part. The loop ends only when at most five candidates are left, the budget is used up, the whole population was
drawn, or every confidence interval lies above zero (no split helps). -/
theorem C24_stop_reasons_partial (R : Rng K G) (g : G) (glob : Glob G) (junk : Junk K) (row : List K)
    (rest : List (List K)) (labels : List K) (minmax : Option (List K × List K)) (d : DiscDict K) (binType : Option BinType)
    (B : Nat) (isCls : Bool) (m : Criterion) (epsilon : K) (withRep : Bool) (budget : Option Int) (batch : Nat)
    (out : MabOut K G)
    (hok : solveMab R g glob junk (row :: rest) labels minmax d binType (some B) isCls m epsilon withRep budget batch
      = .ok out) :
    out.final.cands.length ≤ 5 ∨ (∃ b, budget = some b ∧ b ≤ out.total) ∨ out.final.pop = some [] ∨
      ∀ f < row.length, ∀ b < B, (XF.fin 0).lt (out.final.lcb (f, b)) = true := by
  obtain ⟨row', rest', B', hs, s0, hdata, hB, hid, hmake, hinit, hloop, hfin⟩ := solveMab_parts hok
  cases hdata
  cases hB
  obtain ⟨_, _, _, _, _, htot, _, _⟩ := mabFinish_ok hfin
  rw [htot]
  obtain ⟨n, hruns⟩ := mabLoop_ok_runs _ _ hloop
  generalize out.final = s at hruns
  clear hinit hloop hfin htot hok
  have hob : ∀ {t : Nat}, overBudget budget t = true → ∃ b, budget = some b ∧ b ≤ t := by
    intro t h
    unfold overBudget at h
    split at h
    · cases h
    · next b => exact ⟨b, rfl, by simpa using h⟩
  have hpos : ∀ {a : Mat K} {ml : XF K}, matMin row.length B a = .ok ml → (XF.fin 0).lt ml = true →
      ∀ f < row.length, ∀ b < B, (XF.fin 0).lt (a (f, b)) = true := by
    intro a ml h1 h2 f hf b hb
    rcases matMin_spec h1 with ⟨rfl, _⟩ | ⟨h3, h4, _, h5⟩
    · simp [XF.lt] at h2
    · have hmem : ((f, b) : Arm) ∈ allArms row.length B := mem_allArms.2 ⟨hf, hb⟩
      exact XF.lt_of_lt_of_not_lt (h3 _ hmem) h2 (h5 _ hmem)
  generalize hr : (Except.ok s : Except Err (MabState K G)) = r at hruns
  induction hruns with
  | stop h5 => cases hr; left; omega
  | raise h5 hs' => cases hr
  | again h5 hs' hr' ih => exact ih hr
  | leave h5 hs' =>
    cases hr
    rcases mabStep_cases hs' with ⟨s1, h1, h2⟩ | ⟨s1, h1, h2⟩
    · cases h2
      rcases mabExactPart_cases h1 with ⟨hr, _⟩ | ⟨hrep, ea, o, est, mu, ml, hea, _, hout, hest, _, hml, hr⟩
      · cases hr
      · rcases hr with ⟨hr, h | h⟩ | ⟨hr, _⟩
        · cases hr; exact Or.inr (Or.inl (hob h))
        · cases hr; exact Or.inr (Or.inr (Or.inr (hpos hml h)))
        · cases hr
    · rcases mabSamplePart_cases h2 with ⟨hl, hr⟩ | ⟨_, hp, hr⟩ | ⟨hlen, hne, o, est, cbd, hout, hest, hcbd, hr⟩
      · cases hr; left; omega
      · cases hr; exact Or.inr (Or.inr (Or.inl hp))
      · rcases hr with ⟨hr, h | ⟨ml, hml, h⟩⟩ | ⟨_, ml, mi, mu, _, _, _, _, hr⟩
        · cases hr; exact Or.inr (Or.inl (hob h))
        · cases hr; exact Or.inr (Or.inr (Or.inr (hpos hml h)))
        · cases hr

/-- C24, second part (`epsilon = 0`). If no upper bound is NaN after a pass, the candidates kept are exactly the arms that are not
yet computed exactly, whose interval reaches below zero and starts below the upper end of every other interval. So the loop
goes on while more than five such arms are left, unless it stops for one of the other reasons of `C24_stop_reasons_partial`. -/
theorem C24_candidates_partial (R : Rng K G) (g : G) (glob : Glob G) (junk : Junk K) (row : List K)
    (rest : List (List K)) (labels : List K) (minmax : Option (List K × List K)) (d : DiscDict K) (binType : Option BinType)
    (B : Nat) (isCls : Bool) (m : Criterion) (withRep : Bool) (budget : Option Int) (batch : Nat) (hs : Hists K G)
    (s s' : MabState K G) (hm : CritFits isCls m) (hb : BinningOK minmax d binType B)
    (hround : MabRound R g glob junk (row :: rest) labels minmax d binType B isCls m 0 withRep budget batch hs s s')
    (hnan : ∀ f < row.length, ∀ b < B, s'.ucb (f, b) ≠ .nan) (f b : Nat) :
    (f, b) ∈ s'.cands ↔ f < row.length ∧ b < B ∧ s'.exact (f, b) = false ∧ (s'.lcb (f, b)).lt (.fin 0) = true ∧
      ∀ f' < row.length, ∀ b' < B, (s'.lcb (f, b)).lt (s'.ucb (f', b')) = true := by
  obtain ⟨row', rest', I, hdata, hg, hi, ht, _, hstep⟩ := MabRound.facts hm hb hround
  cases hdata
  obtain ⟨ml, mi, mu, _, _, e3, e4, _, hc⟩ := next_shape hstep
  rw [hc]
  unfold nextCands
  rw [List.mem_filter, mem_allArms]
  have hmu : ∀ l : XF K, l.lt mu = true ↔ ∀ f' < row.length, ∀ b' < B, l.lt (s'.ucb (f', b')) = true := by
    intro l
    rcases matMin_spec e4 with ⟨_, x, hx, hxn⟩ | ⟨h3, h4, ⟨x, hx, h6⟩, h5⟩
    · exact absurd hxn (hnan x.1 (mem_allArms.1 hx).1 x.2 (mem_allArms.1 hx).2)
    · constructor
      · intro h f' hf b' hb'
        have hmem : ((f', b') : Arm) ∈ allArms row.length B := mem_allArms.2 ⟨hf, hb'⟩
        exact XF.lt_of_lt_of_not_lt (h3 _ hmem) h (h5 _ hmem)
      · intro h
        rw [← h6]
        exact h x.1 (mem_allArms.1 hx).1 x.2 (mem_allArms.1 hx).2
  simp only [Bool.and_eq_true, Bool.not_eq_eq_eq_not, Bool.not_true, Bool.or_eq_true, decide_eq_true_eq, hmu]
  constructor
  · rintro ⟨⟨h1, h2⟩, ⟨⟨h3, h4⟩, h5⟩, _⟩
    exact ⟨h1, h2, h3, h5, h4⟩
  · rintro ⟨h1, h2, h3, h5, h4⟩
    exact ⟨⟨h1, h2⟩, ⟨⟨h3, h4⟩, h5⟩, Or.inl (hi.est_min ht e3 (mem_allArms.2 ⟨h1, h2⟩))⟩

/-- C24, the flaw: one NaN upper bound removes every candidate, and the loop ends. -/
theorem C24_nan_stops (R : Rng K G) (g : G) (glob : Glob G) (junk : Junk K) (row : List K)
    (rest : List (List K)) (labels : List K) (minmax : Option (List K × List K)) (d : DiscDict K) (binType : Option BinType)
    (B : Nat) (isCls : Bool) (m : Criterion) (epsilon : K) (withRep : Bool) (budget : Option Int) (batch : Nat)
    (hs : Hists K G) (s s' : MabState K G) (hm : CritFits isCls m) (hb : BinningOK minmax d binType B)
    (hround : MabRound R g glob junk (row :: rest) labels minmax d binType B isCls m epsilon withRep budget batch hs s s')
    (f b : Nat) (hf : f < row.length) (hb' : b < B) (hnan : s'.ucb (f, b) = .nan) : s'.cands = [] := by
  obtain ⟨row', rest', I, hdata, hg, hi, ht, _, hstep⟩ := MabRound.facts hm hb hround
  cases hdata
  obtain ⟨ml, mi, mu, _, _, e3, e4, _, hc⟩ := next_shape hstep
  rcases matMin_spec e4 with ⟨rfl, _⟩ | ⟨h3, _⟩
  · rw [hc]
    unfold nextCands
    rw [List.filter_eq_nil_iff]
    intro a _
    cases s'.lcb a <;> simp [XF.lt]
  · have := h3 (f, b) (mem_allArms.2 ⟨hf, hb'⟩)
    rw [hnan] at this
    cases this

/-- C24 is false: with Gini and LINEAR bins, the last edge (the maximum) separates nothing, its interval is NaN, and the loop stops
after one batch of three rows out of six, with unlimited budget, although seven arms have overlapping intervals. -/
theorem C24_refuted :
    ((solveMab rngQ 0 ⟨0, 0⟩ junkQ [[0, 1, 1], [1, 1, 1], [2, 5, 5], [3, 5, 5], [4, 2, 2], [5, 2, 2]] [0, 0, 1, 1, 0, 1]
      none none (some .linear) (some 4) true .gini 0 false none 3).map (fun o =>
        (o.final.log, o.final.pop, o.final.cands))).toOption = some ([[0, 1, 2]], some [3, 4, 5], []) ∧
    ((solveMab rngQ 0 ⟨0, 0⟩ junkQ [[0, 1, 1], [1, 1, 1], [2, 5, 5], [3, 5, 5], [4, 2, 2], [5, 2, 2]] [0, 0, 1, 1, 0, 1]
      none none (some .linear) (some 4) true .gini 0 false none 3).map (fun o =>
        (allArms 3 4).filter (overlap o.final (0, 1)))).toOption
      = some [(0, 1), (1, 0), (1, 1), (1, 2), (2, 0), (2, 1), (2, 2)] := by
  constructor <;> decide +kernel

/-! ### C25 -/

/-- C25. In any pass (`epsilon = 0`) after which every candidate's interval contains its true value `t`, an arm whose true value is
negative and below the true values of all the other candidates, and whose own interval is not a single point, is kept (or is
already computed exactly). -/
theorem C25_best_arm_kept (R : Rng K G) (g : G) (glob : Glob G) (junk : Junk K) (row : List K)
    (rest : List (List K)) (labels : List K) (minmax : Option (List K × List K)) (d : DiscDict K) (binType : Option BinType)
    (B : Nat) (isCls : Bool) (m : Criterion) (withRep : Bool) (budget : Option Int) (batch : Nat) (hs : Hists K G)
    (s s' : MabState K G) (hm : CritFits isCls m) (hb : BinningOK minmax d binType B)
    (hround : MabRound R g glob junk (row :: rest) labels minmax d binType B isCls m 0 withRep budget batch hs s s')
    (t : Nat → Nat → K)
    (hvalid : ∀ f b v, IsCand hs.hists B f b v → Contains (s'.lcb (f, b)) (s'.ucb (f, b)) (t f b))
    (f b : Nat) (v : K) (hc : IsCand hs.hists B f b v) (hneg : t f b < 0)
    (hbest : ∀ f' b' v', IsCand hs.hists B f' b' v' → (f', b') ≠ (f, b) → t f b < t f' b')
    (hwidth : (s'.lcb (f, b)).lt (s'.ucb (f, b)) = true) :
    (f, b) ∈ s'.cands ∨ s'.exact (f, b) = true := by
  obtain ⟨row', rest', I, hdata, hg, hi, ht, hu, hstep⟩ := MabRound.facts hm hb hround
  cases hdata
  obtain ⟨hmem, _⟩ := hg.cand_mem hc
  have hf : f < row.length := (hg.cands_valid _ hmem).1
  have hcand : ∀ f' < row.length, ∀ b' < B, (f', b') ∈ hs.notCons ∨ ∃ v', IsCand hs.hists B f' b' v' := by
    intro f' hf' b' hb'
    rcases hg.mem_cands_or (a := (f', b')) (mem_allArms.2 ⟨hf', hb'⟩) with h | h
    · exact Or.inr ⟨_, hg.mem_cand h.1 hb'⟩
    · exact Or.inl h.1
  cases hex : s'.exact (f, b) with
  | true => exact Or.inr rfl
  | false =>
    left
    obtain ⟨hl, hu'⟩ := hvalid f b v hc
    refine (C24_candidates_partial R g glob junk row rest labels minmax d binType B isCls m withRep budget batch hs s s' hm hb
      hround ?_ f b).2 ⟨hf, hc.2, hex, ?_, ?_⟩
    · intro f' hf' b' hb' hn
      rcases hcand f' hf' b' hb' with h | ⟨v', h⟩
      · rw [hu _ h] at hn; cases hn
      · have := (hvalid f' b' v' h).2
        rw [hn] at this
        simp [XF.lt] at this
    · rcases hl with h | h
      · rw [h]; simpa [XF.lt] using hneg
      · exact XF.lt_trans h (by simpa [XF.lt] using hneg)
    · intro f' hf' b' hb'
      by_cases he : ((f', b') : Arm) = (f, b)
      · cases he; exact hwidth
      · rcases hcand f' hf' b' hb' with h | ⟨v', h⟩
        · rw [hu _ h]
          rcases hl with h | h
          · rw [h]; rfl
          · exact XF.lt_trans h rfl
        · have h1 := (hvalid f' b' v' h).2
          have h2 : (XF.fin (t f b)).lt (XF.fin (t f' b')) = true := by
            simpa [XF.lt] using hbest f' b' v' h he
          have h3 : (XF.fin (t f b)).lt (s'.ucb (f', b')) = true := by
            rcases h1 with h1 | h1
            · rw [h1]; exact h2
            · exact XF.lt_trans h2 h1
          rcases hl with h | h
          · rw [h]; exact h3
          · exact XF.lt_trans h h3

instance (l u : XF K) (t : K) : Decidable (Contains l u t) := by unfold Contains; infer_instance

/-- The first pass of `solve_mab` (used in the example below). -/
def firstRound (R : Rng K G) (g : G) (glob : Glob G) (junk : Junk K) (row : List K) (rest : List (List K)) (labels : List K)
    (minmax : Option (List K × List K)) (d : DiscDict K) (binType : Option BinType) (B : Nat) (isCls : Bool) (m : Criterion)
    (epsilon : K) (withRep : Bool) (budget : Option Int) (batch : Nat) : Option (Hists K G × MabState K G × MabState K G) :=
  if binType = some .identity then none else
  match makeHistograms R glob.np isCls (row :: rest) labels minmax d binType B with
  | .error _ => none
  | .ok hs =>
    match mabInit row.length B (row :: rest).length junk withRep hs g with
    | .error _ => none
    | .ok s =>
      if 5 < s.cands.length then
        match mabStep R row.length B (row :: rest) labels m epsilon withRep budget batch s with
        | .ok (.next s') => some (hs, s, s')
        | _ => none
      else none

theorem firstRound_round {R : Rng K G} {g : G} {glob : Glob G} {junk : Junk K} {row : List K} {rest : List (List K)}
    {labels : List K} {minmax : Option (List K × List K)} {d : DiscDict K} {binType : Option BinType} {B : Nat} {isCls : Bool}
    {m : Criterion} {epsilon : K} {withRep : Bool} {budget : Option Int} {batch : Nat}
    {x : Hists K G × MabState K G × MabState K G}
    (h : firstRound R g glob junk row rest labels minmax d binType B isCls m epsilon withRep budget batch = some x) :
    MabRound R g glob junk (row :: rest) labels minmax d binType B isCls m epsilon withRep budget batch x.1 x.2.1 x.2.2 := by
  unfold firstRound at h
  split_ifs at h with hid
  split at h
  · cases h
  · next hs hmake =>
    split at h
    · cases h
    · next s hinit =>
      split_ifs at h with h5
      split at h
      · next s' hstep =>
        cases h
        exact ⟨row, rest, s, rfl, hid, hmake, hinit, .init, h5, hstep⟩
      · cases h

/-- A pass of a regression run that meets the hypotheses of C24 and C25: all eight arms are kept, no bound is NaN, and with true
values `-1` for the first arm and `0` for the others all the intervals are valid. -/
example : ∃ hs s s', MabRound rngQ 0 ⟨0, 0⟩ junkQ [[0, 1], [1, 1], [2, 5], [3, 5], [4, 2], [5, 2]] [0, 3, 1, 7, 2, 1] none none
      (some .linear) 4 false .mse 0 false none 3 hs s s' ∧
    (∀ a ∈ allArms 2 4, Contains (s'.lcb a) (s'.ucb a) (if a = (0, 0) then -1 else 0)) ∧
    (s'.lcb (0, 0)).lt (s'.ucb (0, 0)) = true ∧ s'.cands = allArms 2 4 ∧ (edgesOf hs.hists 0)[0]? = some 0 := by
  have h : (firstRound rngQ 0 ⟨0, 0⟩ junkQ [0, 1] [[1, 1], [2, 5], [3, 5], [4, 2], [5, 2]] [0, 3, 1, 7, 2, 1] none none
      (some .linear) 4 false .mse 0 false none 3).any (fun x => decide (
        (∀ a ∈ allArms 2 4, Contains (x.2.2.lcb a) (x.2.2.ucb a) (if a = (0, 0) then -1 else 0)) ∧
        (x.2.2.lcb (0, 0)).lt (x.2.2.ucb (0, 0)) = true ∧ x.2.2.cands = allArms 2 4 ∧
        (edgesOf x.1.hists 0)[0]? = some 0)) = true := by decide +kernel
  rw [Option.any_eq_true] at h
  obtain ⟨x, hx, hp⟩ := h
  exact ⟨x.1, x.2.1, x.2.2, firstRound_round hx, of_decide_eq_true hp⟩

end FF
