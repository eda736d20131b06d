import Verif.Proofs.MabLoop

/-!
# `solve_mab`: decomposition of a run
-/

namespace FF

open Spec

set_option linter.unusedSectionVars false

variable {K : Type} [Field K] [LinearOrder K] [IsStrictOrderedRing K] [FloorRing K] [NpFun K] {G : Type}

section
variable {R : Rng K G} {isCls : Bool} {data : List (List K)} {labels : List K} {m : Criterion}
    {minmax : Option (List K × List K)} {d : DiscDict K} {binType : Option BinType} {F B : Nat} {hs : Hists K G}
    {withRep : Bool} {I : Nat → List Nat} {s s0 s' : MabState K G} {epsilon : K} {budget : Option Int} {batch : Nat}
    {classes : List K}

theorem sum_le_sum_nat {l : List Nat} {f g : Nat → Nat} (h : ∀ a ∈ l, f a ≤ g a) : (l.map f).sum ≤ (l.map g).sum :=
  List.sum_le_sum h

theorem HistsGood.numCands_le (hg : HistsGood R isCls data classes minmax d binType F B hs) :
    numCands hs.hists F B ≤ (candArms F B hs).length := by
  unfold numCands candArms
  split
  · rw [hg.cons, List.length_flatMap]
    simp only [List.length_map, List.length_range]
    exact sum_le_sum_nat (fun a _ => min_le_right _ _)
  · rw [length_allArms]
    refine le_trans (sum_le_sum_nat (g := fun _ => B) (fun a _ => min_le_left _ _)) ?_
    rw [List.map_const', List.sum_replicate, List.length_range, smul_eq_mul]

/-- The pieces of a successful `solve_mab`. -/
theorem solveMab_parts {g : G} {glob : Glob G} {junk : Junk K} {numBins : Option Nat} {out : MabOut K G}
    (hok : solveMab R g glob junk data labels minmax d binType numBins isCls m epsilon withRep budget batch = .ok out) :
    ∃ row rest B hs s0, data = row :: rest ∧ numBins = some B ∧ binType ≠ some .identity ∧
      makeHistograms R glob.np isCls data labels minmax d binType B = .ok hs ∧
      mabInit row.length B data.length junk withRep hs g = .ok s0 ∧
      mabLoop R row.length B data labels m epsilon withRep budget batch (mabFuel row.length B data.length) s0 = .ok out.final ∧
      mabFinish R row.length B { glob with np := hs.g } out.final = .ok out := by
  unfold solveMab at hok
  split at hok
  · cases hok
  · next row rest =>
    simp only [] at hok
    split_ifs at hok with hid
    split at hok
    · cases hok
    · next B =>
      split at hok
      · cases hok
      · next hs hmake =>
        split at hok
        · cases hok
        · next s0 hinit =>
          split at hok
          · cases hok
          · next s hloop =>
            have hs' : out.final = s := by
              unfold mabFinish at hok
              split at hok
              · cases hok
              · split_ifs at hok
                simp only [] at hok
                split at hok
                · cases hok
                · cases hok; rfl
            rw [← hs'] at hloop hok
            exact ⟨row, rest, B, hs, s0, rfl, rfl, hid, hmake, hinit, hloop, hok⟩

/-- The initial population is known. -/
theorem mabInit_pop {N : Nat} {junk : Junk K} {g : G} (h : mabInit F B N junk withRep hs g = .ok s) :
    (withRep = false → s.pop ≠ none) ∧ popLen s ≤ N := by
  obtain ⟨_, _, _, _, _, _, h7, _⟩ := mabInit_ok h
  constructor
  · intro hw; rw [h7, hw]; simp
  · unfold popLen
    rw [h7]
    split <;> simp

/-- The bounded loop of the model is the `while` loop of the code, for every state with a known population. -/
theorem mabLoop_runs (hb : 0 < batch) (hp : (withRep = false → s.pop ≠ none) ∧ popLen s ≤ data.length) :
    ∃ n, n ≤ mabFuel F B data.length ∧ MabRuns R F B data labels m epsilon withRep budget batch s n
      (mabLoop R F B data labels m epsilon withRep budget batch (mabFuel F B data.length) s) := by
  obtain ⟨n, r, hn, hr⟩ := mab_terminates (R := R) (F := F) (B := B) (data := data) (labels := labels) (m := m)
    (epsilon := epsilon) (budget := budget) (withRep := withRep) hb hp.1
  have hle : n ≤ mabFuel F B data.length := by
    unfold mabFuel
    rw [Nat.mul_add]
    omega
  rw [mabLoop_of_runs hr _ hle]
  exact ⟨n, hle, hr⟩

/-- A result of the bounded loop is a result of the `while` loop, whatever the bound. -/
theorem mabLoop_ok_runs (fuel : Nat) (s : MabState K G)
    (h : mabLoop R F B data labels m epsilon withRep budget batch fuel s = .ok s') :
    ∃ n, MabRuns R F B data labels m epsilon withRep budget batch s n (.ok s') := by
  induction fuel generalizing s with
  | zero =>
    unfold mabLoop at h
    split_ifs at h with h5
    cases h
    exact ⟨0, .stop h5⟩
  | succ k ih =>
    unfold mabLoop at h
    split_ifs at h with h5
    · split at h
      · cases h
      · next s1 hs1 => cases h; exact ⟨1, .leave h5 hs1⟩
      · next s1 hs1 =>
        obtain ⟨n, hn⟩ := ih s1 h
        exact ⟨n + 1, .again h5 hs1 hn⟩
    · cases h; exact ⟨0, .stop h5⟩

/-- The chosen arm. -/
theorem mabFinish_ok {glob : Glob G} {out : MabOut K G} (h : mabFinish R F B glob s = .ok out) :
    ∃ arm arms, bestArms F B s.est = .ok arms ∧ arm ∈ arms ∧ finishSplit s.hists s.est arm = .ok out.split ∧
      out.total = s.total ∧ out.g = s.g ∧ out.final = s := by
  unfold mabFinish at h
  split at h
  · cases h
  · next arms harms =>
    split_ifs at h with h0
    simp only [] at h
    split at h
    · cases h
    · next r hr =>
      cases h
      have hlt := R.pyChoice_lt glob.py arms.length (by omega)
      refine ⟨_, arms, harms, ?_, hr, rfl, rfl, rfl⟩
      rw [List.getD_eq_getElem _ _ hlt]
      exact List.getElem_mem hlt

/-- What a reported split says. -/
theorem finishSplit_some {hists : List (Hist K)} {est : Mat K} {arm : Arm} {r : SplitRes K}
    (h : finishSplit hists est arm = .ok (some r)) :
    r.feat = arm.1 ∧ r.red = est arm ∧ (est arm).lt (.fin 0) = true ∧
      ∃ hh edges, hists[arm.1]? = some hh ∧ hh.edges = some edges ∧ edges[arm.2]? = some r.value := by
  unfold finishSplit at h
  split at h
  · cases h
  · next hh hhe =>
    split at h
    · cases h
    · next edges he =>
      split at h
      · cases h
      · next v hv =>
        split_ifs at h with hlt
        · cases h
          exact ⟨rfl, rfl, hlt, hh, edges, hhe, he, hv⟩
        · cases h

/-! ### After the first pass every arm is known -/

/-- Every entry of the array is a sampled arm or excluded. -/
def AllTouched (F B : Nat) (hs : Hists K G) (s : MabState K G) : Prop :=
  ∀ a ∈ allArms F B, a ∈ hs.notCons ∨ 0 < s.numSamples a

theorem numSamples_exactPart {r : Loop (MabState K G)}
    (h : mabExactPart R F B data labels m withRep budget batch s = .ok r) (a : Arm) :
    s.numSamples a ≤ r.state.numSamples a := by
  rcases mabExactPart_cases h with ⟨rfl, _⟩ | ⟨hrep, ea, out, est, mu, ml, hea, _, hout, hest, _, _, hr⟩
  · exact le_refl _
  · rcases hr with ⟨rfl, _⟩ | ⟨rfl, _⟩ <;>
    · simp only [Loop.state, afterExact]
      split <;> omega

theorem numSamples_samplePart {r : Loop (MabState K G)}
    (h : mabSamplePart R F B data labels m epsilon budget batch s = .ok r) (a : Arm) :
    s.numSamples a ≤ r.state.numSamples a := by
  rcases mabSamplePart_cases h with ⟨_, rfl⟩ | ⟨_, _, rfl⟩ | ⟨_, _, out, est, cbd, hout, hest, hcbd, hr⟩
  · exact le_refl _
  · exact le_refl _
  · rcases hr with ⟨rfl, _⟩ | ⟨_, ml, mi, mu, _, _, _, _, rfl⟩ <;>
    · simp only [Loop.state, afterSample]
      split <;> omega

theorem numSamples_step {r : Loop (MabState K G)}
    (h : mabStep R F B data labels m epsilon withRep budget batch s = .ok r) (a : Arm) :
    s.numSamples a ≤ r.state.numSamples a := by
  rcases mabStep_cases h with ⟨s', h1, rfl⟩ | ⟨s', h1, h2⟩
  · exact numSamples_exactPart h1 a
  · exact le_trans (numSamples_exactPart h1 a) (numSamples_samplePart h2 a)

theorem numSamples_runs {n : Nat} (h : MabRuns R F B data labels m epsilon withRep budget batch s n (.ok s')) (a : Arm) :
    s.numSamples a ≤ s'.numSamples a := by
  generalize hr : (Except.ok s' : Except Err (MabState K G)) = r at h
  induction h with
  | stop h5 => cases hr; exact le_refl _
  | raise h5 hs' => cases hr
  | leave h5 hs' => cases hr; exact numSamples_step hs' a
  | again h5 hs' hr' ih => exact le_trans (numSamples_step hs' a) (ih hr)

/-- Samples are drawn: a batch of size zero makes `sample_targets` raise. -/
theorem MabInv.batch_pos (hm : CritFits isCls m) (hb : BinningOK minmax d binType B)
    (hg : HistsGood R isCls data classes minmax d binType F B hs)
    (hi : MabInv R isCls data labels m minmax d binType F B hs withRep (fun _ => []) s) {out : SampleOut K G}
    (hne : s.cands ≠ [])
    (hout : sampleTargets R s.g data labels s.cands s.hists batch m s.pop = .ok out) : 0 < batch := by
  obtain ⟨pop, hdraw, hspec, _, _⟩ := hi.sample_call hm hb hg hout
  obtain ⟨a, ha⟩ := List.exists_mem_of_ne_nil _ hne
  have hk : a.1 ∈ s.cands.map Prod.fst := List.mem_map.2 ⟨a, ha, rfl⟩
  have := hspec.ne a.1 hk
  simp only [if_pos hk, List.nil_append] at this
  have h1 := List.length_pos_of_ne_nil this
  have h2 := drawSamples_length hdraw
  omega

/-- The first pass samples or computes every candidate. -/
theorem first_pass (hm : CritFits isCls m) (hb : BinningOK minmax d binType B) (hdata : data ≠ [])
    (hg : HistsGood R isCls data classes minmax d binType F B hs) {g0 : G}
    (hmake : makeHistograms R g0 isCls data labels minmax d binType B = .ok hs) {junk : Junk K} {g : G}
    (hinit : mabInit F B data.length junk withRep hs g = .ok s) (h5 : 5 < s.cands.length) {r : Loop (MabState K G)}
    (h : mabStep R F B data labels m epsilon withRep budget batch s = .ok r) : AllTouched F B hs r.state := by
  have hi := MabInv.init (m := m) (labels := labels) hg hmake hinit
  obtain ⟨_, h2, _, h4, h5', _, h7, _⟩ := mabInit_ok hinit
  have hN : 0 < data.length := List.length_pos_of_ne_nil hdata
  intro a ha
  rcases hg.mem_cands_or ha with hc | hc
  swap
  · exact Or.inl hc.1
  right
  rcases mabStep_cases h with ⟨s', h1, rfl⟩ | ⟨s', h1, h3⟩
  · rcases mabExactPart_cases h1 with ⟨hr, _⟩ | ⟨hrep, ea, out, est, mu, ml, hea, hne, hout, hest, _, _, hr⟩
    · cases hr
    · -- some arm qualifies, hence all do
      have hmem : a ∈ ea := by
        obtain ⟨b, hb'⟩ := List.exists_mem_of_ne_nil _ hne
        rw [hea, mem_exactArms, h4] at hb'
        rw [hea, mem_exactArms, h4, h5']
        exact ⟨ha, hb'.2.1, by simpa using hc.2⟩
      rcases hr with ⟨hr, _⟩ | ⟨hr, _⟩
      · cases hr
        simp only [Loop.state, afterExact, if_pos hmem]
        omega
      · cases hr
  · rcases mabExactPart_cases h1 with ⟨hr, _⟩ | ⟨hrep, ea, out, est, mu, ml, hea, hne, hout, hest, _, _, hr⟩
    · cases hr
      have hmem : a ∈ s.cands := by rw [h2]; exact hc.1
      rcases mabSamplePart_cases h3 with ⟨hl, _⟩ | ⟨_, hpop, _⟩ | ⟨_, _, out, est, cbd, hout, hest, hcbd, hr⟩
      · omega
      · rw [h7] at hpop
        split at hpop
        · cases hpop
        · simp only [Option.some.injEq, List.range_eq_nil] at hpop
          omega
      · have hbpos := hi.batch_pos hm hb hg (by rw [ne_eq, ← List.length_eq_zero_iff]; omega) hout
        rcases hr with ⟨rfl, _⟩ | ⟨_, ml, mi, mu, _, _, _, _, rfl⟩ <;>
        · simp only [Loop.state, afterSample, if_pos hmem]
          omega
    · have hmem : a ∈ ea := by
        obtain ⟨b, hb'⟩ := List.exists_mem_of_ne_nil _ hne
        rw [hea, mem_exactArms, h4] at hb'
        rw [hea, mem_exactArms, h4, h5']
        exact ⟨ha, hb'.2.1, by simpa using hc.2⟩
      refine lt_of_lt_of_le ?_ (numSamples_samplePart h3 a)
      rcases hr with ⟨hr, _⟩ | ⟨hr, _⟩
      · cases hr
      · cases hr
        simp only [afterExact, if_pos hmem]
        omega

/-- When there are more than five candidates, every arm has been sampled in the end. -/
theorem final_touched (hm : CritFits isCls m) (hb : BinningOK minmax d binType B) (hdata : data ≠ [])
    (hg : HistsGood R isCls data classes minmax d binType F B hs) {g0 : G}
    (hmake : makeHistograms R g0 isCls data labels minmax d binType B = .ok hs) {junk : Junk K} {g : G}
    (hinit : mabInit F B data.length junk withRep hs g = .ok s0) (h5 : 5 < (candArms F B hs).length) {n : Nat}
    (h : MabRuns R F B data labels m epsilon withRep budget batch s0 n (.ok s)) : AllTouched F B hs s := by
  have hc : s0.cands = candArms F B hs := (mabInit_ok hinit).2.1
  cases h with
  | stop h => rw [hc] at h; exact absurd h5 h
  | leave h hs' => exact first_pass hm hb hdata hg hmake hinit h hs'
  | again h hs' hr =>
    have := first_pass hm hb hdata hg hmake hinit h hs'
    intro a ha
    rcases this a ha with h1 | h1
    · exact Or.inl h1
    · exact Or.inr (lt_of_lt_of_le h1 (numSamples_runs hr a))

end

end FF
