import Verif.Proofs.FitSound
import Verif.Props.FitThreads
/-!
# C138: threads do not corrupt the models they fit
-/
namespace FF
open Spec
set_option linter.unusedSectionVars false
variable {K : Type} [Field K] [LinearOrder K] [IsStrictOrderedRing K] [FloorRing K] [NpFun K] {G : Type}
variable (R : Rng K G)

/-- C138. Let threads fit trees and forests of any kind, seed the process-wide generators and draw from them, each with label arrays of its own.
Whatever the schedule, what every thread has made so far are sound models of its first jobs: the other threads may change what is drawn, but
not what is right for every draw. -/
theorem C138_sound {w : World K G} {jobs : List (List (FitJob K G))} (hA : Apart w jobs) (i : Nat) (js : List (FitJob K G))
    (hi : jobs[i]? = some js) (sched : List Nat) (th : FitThread K G)
    (ht : ((FitMachine.start w jobs).run R sched).threads[i]? = some th) :
    ∃ did rest, js = did ++ rest ∧ List.Forall₂ (SoundOut w (writtenBy jobs)) did th.got ∧ (th.Ended → th.raised = none → rest = []) := by
  obtain ⟨did, rest, h1, h2, h3⟩ := ((AllOK.run (R := R) hA sched (.start w jobs)).ok i th js ht hi).state
  refine ⟨did, rest, h1, h2, fun he hr => ?_⟩
  rcases he with he | ⟨h4, h5⟩
  · exact absurd hr he
  · rcases h3 hr with ⟨_, h6⟩ | ⟨j, k, h6, _⟩
    · rw [h6, h5]
    · rw [h4] at h6; cases h6

/-- C138 for one tree. -/
theorem C138_tree {w : World K G} {jobs : List (List (FitJob K G))} (hA : Apart w jobs) (i : Nat) (A : TreeArgs K) (mem : Nat → Junk K)
    (hi : jobs[i]? = some [.tree A mem]) (sched : List Nat) (th : FitThread K G)
    (ht : ((FitMachine.start w jobs).run R sched).threads[i]? = some th) (t : Tree K G) (hg : FitOut.tree t ∈ th.got) : SoundTree A t := by
  obtain ⟨did, rest, h1, h2, _⟩ := C138_sound R hA i _ hi sched th ht
  cases did with
  | nil => cases hl : th.got with
    | nil => rw [hl] at hg; cases hg
    | cons o os => rw [hl] at h2; cases h2
  | cons j did =>
    have hd : did = [] ∧ j = .tree A mem := by
      simp only [List.cons_append, List.cons.injEq] at h1
      exact ⟨(List.append_eq_nil_iff.1 h1.2.symm).1, h1.1.symm⟩
    obtain ⟨rfl, rfl⟩ := hd
    generalize th.got = l at h2 hg
    cases h2 with
    | cons ho hos =>
      cases hos
      rw [List.mem_singleton] at hg
      subst hg
      exact ho

/-! ### Examples -/

/-- A tree with the bandit solver and a forest that draws the columns of each node in one thread; a boosted forest and a call of
`np.random.seed` in another: none of these threads need make what it would make alone. -/
def exWildJobs : List (List (FitJob ℚ Nat)) :=
  [[.tree exArgsMab exMem, .forest { fcfgQ with featSub := .sqrt } exData 0 none exMems],
   [.forest { fcfgBoost with featSub := .sqrt } exData 1 none exMems, .other (fun g => { g with np := 4 })]]

theorem exWildJobs_apart : Apart exShared exWildJobs := by
  refine ⟨?_, ?_⟩
  · intro js hjs j hj r hr
    simp only [exWildJobs, List.mem_cons, List.not_mem_nil, or_false] at hjs
    rcases hjs with rfl | rfl <;> simp only [List.mem_cons, List.not_mem_nil, or_false] at hj <;>
      rcases hj with rfl | rfl <;> simp [FitJob.reads] at hr <;> subst hr <;> decide
  · intro a b ja jb ha hb hab x hx y hy r hr
    have ha' : a < 2 := (List.getElem?_eq_some_iff.1 ha).1
    have hb' : b < 2 := (List.getElem?_eq_some_iff.1 hb).1
    obtain rfl | rfl : a = 0 ∨ a = 1 := by omega
    all_goals obtain rfl | rfl : b = 0 ∨ b = 1 := by omega
    all_goals
      simp only [exWildJobs, List.getElem?_cons_zero, List.getElem?_cons_succ, Option.some.injEq] at ha hb
      first
        | exact absurd rfl hab
        | (subst ha; subst hb
           simp only [List.mem_cons, List.not_mem_nil, or_false] at hx hy
           rcases hx with rfl | rfl <;> rcases hy with rfl | rfl <;> simp [FitJob.writes, FitJob.reads, fcfgQ, fcfgBoost] at hr ⊢ <;> omega)

/-- The two threads take turns and end, with another tree than the first thread would have made alone. -/
theorem exWildJobs_run :
    (answersIn exWildJobs (List.replicate 60 [1, 0]).flatten 0).map (fun p => (p.1.length, p.2)) = some (2, true) ∧
    (answersIn exWildJobs (List.replicate 60 [1, 0]).flatten 0).map Prod.fst ≠ some (answersAlone (exWildJobs.getD 0 [])) := by
  constructor <;> decide +kernel

/-- Both models of the first thread are sound. -/
example : ∃ th : FitThread ℚ Nat, ((FitMachine.start exShared exWildJobs).run rngQ (List.replicate 60 [1, 0]).flatten).threads[0]? = some th ∧
    List.Forall₂ (SoundOut exShared [1]) (exWildJobs.getD 0 []) th.got := by
  have h := exWildJobs_run.1
  unfold answersIn at h
  cases ht : ((FitMachine.start exShared exWildJobs).run rngQ (List.replicate 60 [1, 0]).flatten).threads[0]? with
  | none => rw [ht] at h; cases h
  | some th =>
    rw [ht] at h
    simp only [Option.map_some, Option.some.injEq, Prod.mk.injEq, List.length_map, Bool.and_eq_true, Option.isNone_iff_eq_none,
      List.isEmpty_iff] at h
    obtain ⟨did, rest, h1, h2, h3⟩ := C138_sound rngQ exWildJobs_apart 0 _ rfl _ th ht
    rw [h3 (Or.inr ⟨h.2.1.2, h.2.2⟩) h.2.1.1, List.append_nil] at h1
    rw [← h1] at h2
    exact ⟨th, rfl, h2⟩

end FF
