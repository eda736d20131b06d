import Verif.Proofs.FitMachine
import Verif.Props.ForestEx
import Verif.Props.Tree
/-!
# C137: models that are fitted in several threads
-/
namespace FF
open Spec
set_option linter.unusedSectionVars false
variable {K : Type} [Field K] [LinearOrder K] [IsStrictOrderedRing K] [FloorRing K] [NpFun K] {G : Type}
variable (R : Rng K G)

/-- C137. Let a thread fit trees with the exact solver and without RANDOM bins, and forests that also look at all columns in every node. Let
the other threads do what they like, with label arrays of their own. Whatever the schedule, what the thread has made so far is the beginning of
what the same program makes without other threads. If the thread has ended, it has made all of it, and it has raised the same exception. -/
theorem C137_threads {w : World K G} {jobs : List (List (FitJob K G))} (hA : Apart w jobs) (i : Nat) (js : List (FitJob K G))
    (hi : jobs[i]? = some js) (hq : ∀ j ∈ js, QuietJob j) (sched : List Nat) :
    ∃ th, ((FitMachine.start w jobs).run R sched).threads[i]? = some th ∧
      (∃ outs rest, (runAlone R w js).1 = outs ++ rest ∧ List.Forall₂ SameOut th.got outs) ∧
      (th.Ended → List.Forall₂ SameOut th.got (runAlone R w js).1 ∧ th.raised = (runAlone R w js).2) := by
  have hm := MachineInv.run (R := R) hA hi sched (.start hA hi hq)
  have hlt : i < ((FitMachine.start w jobs).run R sched).threads.length := by
    rw [hm.len]
    by_contra hc
    rw [List.getElem?_eq_none (by omega)] at hi
    cases hi
  have ht := List.getElem?_eq_getElem hlt
  obtain ⟨hq', outs, ho, hs⟩ := hm.inv _ ht
  refine ⟨_, ht, ?_, ?_⟩
  · rcases hs with ⟨e, _, hP⟩ | ⟨_, w', now', _, _, hP⟩
    · exact ⟨outs, [], by rw [hP, List.append_nil], ho⟩
    · exact ⟨outs, _, by rw [hP], ho⟩
  · intro he
    rcases hs with ⟨e, hr, hP⟩ | ⟨hr, w', now', _, hn, hP⟩
    · rw [hP, hr]
      exact ⟨ho, rfl⟩
    · rcases he with he | ⟨h1, h2⟩
      · exact absurd hr he
      · rw [h1] at hn
        cases hn
        rw [hP, h2, hr]
        simp only [continueAlone, runAlone, List.append_nil]
        exact ⟨ho, trivial⟩

/-- C137, the end: no schedule starves a thread that gets its turns. There is a number of turns after which a thread has ended, whatever the
threads do. -/
theorem C137_ends (w : World K G) (jobs : List (List (FitJob K G))) (i : Nat) (hi : i < jobs.length) :
    ∃ n, ∀ sched : List Nat, n ≤ sched.count i →
      ∃ th, ((FitMachine.start w jobs).run R sched).threads[i]? = some th ∧ th.Ended := by
  have hs : (FitMachine.start w jobs).threads[i]? = some { todo := jobs[i] } := by
    simp [FitMachine.start, List.getElem?_eq_getElem hi]
  refine ⟨FitThread.left R ({ todo := jobs[i] } : FitThread K G) + 1, fun sched hc => ?_⟩
  obtain ⟨th, h1, h2⟩ := run_left (R := R) sched _ i _ hs
  refine ⟨th, h1, ?_⟩
  rcases h2 with h2 | h2
  · exact h2
  · omega

/-- C137 for one tree: a thread that fits one tree ends with the tree that a program with one thread fits. -/
theorem C137_tree {w : World K G} {jobs : List (List (FitJob K G))} (hA : Apart w jobs) (i : Nat) (A : TreeArgs K) (mem : Nat → Junk K)
    (hi : jobs[i]? = some [.tree A mem]) (hq : QuietTree A.cfg) (t0 t : Tree K G) (glob0 glob : Glob G)
    (h0 : Tree.init R A.cfg A.data A.labels A.disc A.budget A.seed A.idcs A.feats = .ok (t0, glob0))
    (h1 : Tree.fit R mem t0 glob0 none none = .ok (t, glob)) (sched : List Nat) (th : FitThread K G)
    (ht : ((FitMachine.start w jobs).run R sched).threads[i]? = some th) (he : th.Ended) : th.got = [.tree t] ∧ th.raised = none := by
  obtain ⟨th', h2, _, h3⟩ := C137_threads R hA i _ hi (fun j hj => by rw [List.mem_singleton] at hj; subst hj; exact hq) sched
  rw [ht] at h2
  cases h2
  obtain ⟨h4, h5⟩ := h3 he
  have e : runAlone R w [.tree A mem] = ([.tree t], none) := by
    unfold runAlone FitJob.alone
    simp only [h0, h1]
    rfl
  rw [e] at h4 h5
  refine ⟨?_, h5⟩
  cases hg : th.got with
  | nil => rw [hg] at h4; cases h4
  | cons o os =>
    rw [hg] at h4
    cases h4 with
    | cons ho hos =>
      cases hos
      cases o with
      | tree t' => cases (show t' = t from ho); rfl
      | forest f => exact absurd ho (by simp [SameOut])
      | nothing => exact absurd ho (by simp [SameOut])

theorem treesPredict_same (x : List K) : ∀ {ts ts' : List (Tree K G)}, List.Forall₂ SameButRng ts ts' →
    (∃ e, treesPredict ts x = .error e ∧ treesPredict ts' x = .error e) ∨
      ∃ ps us us', treesPredict ts x = .ok (ps, us) ∧ treesPredict ts' x = .ok (ps, us') ∧ List.Forall₂ SameButRng us us' := by
  intro ts ts' h
  induction h with
  | nil => exact Or.inr ⟨_, _, _, rfl, rfl, .nil⟩
  | cons ht hts ih =>
    rename_i t t' ts ts'
    obtain ⟨g, rfl⟩ := ht
    unfold treesPredict
    have e : ({ t' with rng := g } : Tree K G).predict x = (t'.predict x).map (fun p => (p.1, p.2.gen g)) := Tree.predict_gen g t' x
    rw [e]
    cases t'.predict x with
    | error e => exact Or.inl ⟨_, rfl, rfl⟩
    | ok p =>
      obtain ⟨p, u⟩ := p
      dsimp only [Except.map]
      rcases ih with ⟨e, h1, h2⟩ | ⟨ps, us, us', h1, h2, h3⟩
      · rw [h1, h2]; exact Or.inl ⟨_, rfl, rfl⟩
      · rw [h1, h2]; exact Or.inr ⟨_, _, _, rfl, rfl, .cons ⟨g, rfl⟩ h3⟩

theorem Forest.predict_same {f f' : Forest K G} (h : SameForest f f') (x : List K) :
    (∃ e, f.predict x = .error e ∧ f'.predict x = .error e) ∨
      ∃ p f1 f1', f.predict x = .ok (p, f1) ∧ f'.predict x = .ok (p, f1') ∧ SameForest f1 f1' := by
  obtain ⟨ht, ts, o, n, rfl⟩ := h
  unfold Forest.predict
  dsimp only at ht ⊢
  rcases treesPredict_same x ht with ⟨e, h1, h2⟩ | ⟨ps, us, us', h1, h2, h3⟩
  · rw [h1, h2]; exact Or.inl ⟨_, rfl, rfl⟩
  · rw [h1, h2]
    dsimp only
    by_cases hc : f'.cfg.isCls = true
    · rw [if_pos hc, if_pos hc]
      by_cases hp : ps = []
      · rw [if_pos hp, if_pos hp]; exact Or.inl ⟨_, rfl, rfl⟩
      · rw [if_neg hp, if_neg hp]
        cases npArgmax (avgProbs f'.classes.length (ps.map Pred.probs)) with
        | none => exact Or.inl ⟨_, rfl, rfl⟩
        | some i =>
          dsimp only
          cases f'.classes[i]? with
          | none => exact Or.inl ⟨_, rfl, rfl⟩
          | some c => exact Or.inr ⟨_, _, _, rfl, rfl, h3, us, o, n, rfl⟩
    · rw [if_neg hc, if_neg hc]
      by_cases hb : f'.cfg.boosting = true
      · rw [if_pos hb, if_pos hb]
        by_cases hp : ps = []
        · rw [if_pos hp, if_pos hp]; exact Or.inl ⟨_, rfl, rfl⟩
        · rw [if_neg hp, if_neg hp]
          exact Or.inr ⟨_, _, _, rfl, rfl, h3, us, o, n, rfl⟩
      · rw [if_neg hb, if_neg hb]
        by_cases hp : ps = []
        · rw [if_pos hp, if_pos hp]; exact Or.inl ⟨_, rfl, rfl⟩
        · rw [if_neg hp, if_neg hp]
          exact Or.inr ⟨_, _, _, rfl, rfl, h3, us, o, n, rfl⟩

/-- C137, what "the same forest" means: the same answers to every batch of points, the same number of trees, the same costs and the same
out-of-bag rows. -/
theorem C137_same_answers {f f' : Forest K G} (h : SameForest f f') :
    (∀ xs : List (List K), (f.predictBatch xs).map Prod.fst = (f'.predictBatch xs).map Prod.fst) ∧ f.trees.length = f'.trees.length ∧
      f.numQueries = f'.numQueries ∧ f.remaining = f'.remaining ∧ f.oobList = f'.oobList := by
  refine ⟨fun xs => ?_, h.trees.length_eq, ?_, ?_, ?_⟩
  · induction xs generalizing f f' with
    | nil => rfl
    | cons x xs ih =>
      unfold Forest.predictBatch
      rcases Forest.predict_same h x with ⟨e, h1, h2⟩ | ⟨p, f1, f1', h1, h2, h3⟩
      · rw [h1, h2]
      · rw [h1, h2]
        have := ih h3
        dsimp only
        cases h4 : f1.predictBatch xs with
        | error e =>
          rw [h4] at this
          cases h5 : f1'.predictBatch xs with
          | error e' => rw [h5] at this; exact this
          | ok q => rw [h5] at this; cases this
        | ok q =>
          rw [h4] at this
          cases h5 : f1'.predictBatch xs with
          | error e' => rw [h5] at this; cases this
          | ok q' =>
            rw [h5] at this
            have e : q.1 = q'.1 := Except.ok.inj this
            simp only [Except.map, e]
  all_goals
    obtain ⟨_, ts, o, n, rfl⟩ := h
    rfl

/-! ### Examples -/

/-- A process with an array of classes and an array of targets. -/
def exShared : World ℚ Nat := { glob := ⟨0, 0⟩, arrays := [[0, 1, 1, 0, 1, 0], [1, 2, 4, 7, 11, 16]] }

/-- What a model answers to the six points of the example data: the probability of class 1, or the value. -/
def FitOut.answers : FitOut ℚ Nat → Option (List ℚ)
  | .tree t => (t.predictBatch exData).toOption.map (fun p => p.1.map answer)
  | .forest f => (f.predictBatch exData).toOption.map (fun p => p.1.map answer)
  | .nothing => none
where
  /-- The probability of class 1, or the value. -/
  answer : Pred ℚ → ℚ
    | .cls _ ps => ps.getD 1 0
    | .reg v => v

/-- What the models of thread `i` answer after the given schedule, and whether the thread has ended without an exception. -/
def answersIn (jobs : List (List (FitJob ℚ Nat))) (sched : List Nat) (i : Nat) : Option (List (Option (List ℚ)) × Bool) :=
  ((FitMachine.start exShared jobs).run rngQ sched).threads[i]?.map
    (fun th => (th.got.map FitOut.answers, th.raised.isNone && th.now.isNone && th.todo.isEmpty))

/-- What the models of the jobs answer if there are no other threads. -/
def answersAlone (js : List (FitJob ℚ Nat)) : List (Option (List ℚ)) := (runAlone rngQ exShared js).1.map FitOut.answers

/-- A tree and a classification forest in one thread; a boosted forest and a call of `np.random.seed` in another. -/
def exFitJobs : List (List (FitJob ℚ Nat)) :=
  [[.tree exArgs exMem, .forest fcfgQ exData 0 none exMems], [.forest fcfgBoost exData 1 none exMems, .other (fun g => { g with np := 4 })]]

/-- The hypotheses of `C137_threads` are met by both threads of the example. -/
example : Apart exShared exFitJobs ∧ ∀ js ∈ exFitJobs, ∀ j ∈ js, QuietJob j := by
  refine ⟨⟨?_, ?_⟩, ?_⟩
  · intro js hjs j hj r hr
    simp only [exFitJobs, List.mem_cons, List.not_mem_nil, or_false] at hjs
    rcases hjs with rfl | rfl <;> simp only [List.mem_cons, List.not_mem_nil, or_false] at hj <;>
      rcases hj with rfl | rfl <;> simp [FitJob.reads] at hr <;> subst hr <;> decide
  · intro a b ja jb ha hb hab x hx y hy r hr
    have ha' : a < 2 := (List.getElem?_eq_some_iff.1 ha).1
    have hb' : b < 2 := (List.getElem?_eq_some_iff.1 hb).1
    obtain rfl | rfl : a = 0 ∨ a = 1 := by omega
    all_goals obtain rfl | rfl : b = 0 ∨ b = 1 := by omega
    all_goals
      simp only [exFitJobs, List.getElem?_cons_zero, List.getElem?_cons_succ, Option.some.injEq] at ha hb
      first
        | exact absurd rfl hab
        | (subst ha; subst hb
           simp only [List.mem_cons, List.not_mem_nil, or_false] at hx hy
           rcases hx with rfl | rfl <;> rcases hy with rfl | rfl <;> simp [FitJob.writes, FitJob.reads, fcfgQ, fcfgBoost] at hr ⊢ <;> omega)
  · intro js hjs j hj
    simp only [exFitJobs, List.mem_cons, List.not_mem_nil, or_false] at hjs
    rcases hjs with rfl | rfl <;> simp only [List.mem_cons, List.not_mem_nil, or_false] at hj <;> rcases hj with rfl | rfl
    · exact ⟨rfl, by decide⟩
    · exact ⟨rfl, by decide, rfl⟩
    · exact ⟨rfl, by decide, rfl⟩
    · exact True.intro

/-- The two threads take turns: each ends with what it would have made alone. -/
example : answersIn exFitJobs (List.replicate 60 [0, 1]).flatten 0 =
      some ([some [0, 0, 1, 1, 0, 1], some [1 / 2, 1, 1, 1 / 2, 1, 1 / 2]], true) ∧
    answersAlone (exFitJobs.getD 0 []) = [some [0, 0, 1, 1, 0, 1], some [1 / 2, 1, 1, 1 / 2, 1, 1 / 2]] ∧
    answersIn exFitJobs (List.replicate 60 [0, 1]).flatten 1 =
      some ([some [5 / 3, 41 / 18, 11 / 4, 125 / 18, 137 / 12, 287 / 18], none], true) ∧
    answersAlone (exFitJobs.getD 1 []) = [some [5 / 3, 41 / 18, 11 / 4, 125 / 18, 137 / 12, 287 / 18], none] := by
  refine ⟨?_, ?_, ?_, ?_⟩ <;> decide +kernel

/-! ### C139 -/

/-- C139, the part that holds: a forest with the exact solver, without RANDOM bins, that looks at all columns in every node. Whatever the
schedule and whatever the other threads do with arrays of their own, a thread that fits one such forest ends with a forest that answers every
batch of points like the forest that a program with one thread fits. Missing for the full property: forests that draw columns for each node,
the bandit solver, RANDOM bins and arrays shared with boosted forests, for which it is false (see below). -/
theorem C139_exact_partial {w : World K G} {jobs : List (List (FitJob K G))} (hA : Apart w jobs) (i : Nat) (cfg : ForestCfg K)
    (data : List (List K)) (labels : Nat) (budget : Option Int) (mem : Nat → Nat → Junk K)
    (hi : jobs[i]? = some [.forest cfg data labels budget mem]) (hq : QuietForest cfg) (f' : Forest K G) (w' : World K G)
    (hf : runForest R mem w cfg data labels budget = .ok (f', w')) (sched : List Nat) (th : FitThread K G)
    (ht : ((FitMachine.start w jobs).run R sched).threads[i]? = some th) (he : th.Ended) :
    th.raised = none ∧ ∃ f, th.got = [.forest f] ∧ f.trees.length = f'.trees.length ∧
      ∀ xs : List (List K), (f.predictBatch xs).map Prod.fst = (f'.predictBatch xs).map Prod.fst := by
  obtain ⟨th', h2, _, h3⟩ := C137_threads R hA i _ hi (fun j hj => by rw [List.mem_singleton] at hj; subst hj; exact hq) sched
  rw [ht] at h2
  cases h2
  obtain ⟨h4, h5⟩ := h3 he
  have e : runAlone R w [.forest cfg data labels budget mem] = ([.forest f'], none) := by
    unfold runForest at hf
    unfold runAlone FitJob.alone
    dsimp only
    cases h0 : Forest.init R w cfg none (some data) (some labels) budget with
    | error e => rw [h0] at hf; cases hf
    | ok p =>
      obtain ⟨f0, w0⟩ := p
      rw [h0] at hf
      have hf' : Forest.fit R mem f0 w0 none none = .ok (f', w') := hf
      dsimp only
      rw [hf']
      rfl
  rw [e] at h4 h5
  refine ⟨h5, ?_⟩
  cases hg : th.got with
  | nil => rw [hg] at h4; cases h4
  | cons o os =>
    rw [hg] at h4
    cases h4 with
    | cons ho hos =>
      cases hos
      cases o with
      | tree t' => exact absurd ho (by simp [SameOut])
      | forest f =>
        have hs : SameForest f f' := ho
        exact ⟨f, rfl, hs.trees.length_eq, (C137_same_answers hs).1⟩
      | nothing => exact absurd ho (by simp [SameOut])

/-- C139 fails for a forest that draws the columns of each node (the default of the forests in the package), even with the exact solver: the
seeds of its trees come from the process-wide generator. If another thread constructs a tree between the constructor and `fit()`, the forest
answers otherwise, with the same `random_state`. -/
theorem C139_refuted_forest :
    answersAlone [.forest { fcfgQ with featSub := .sqrt } exData 0 none exMems] = [some [1 / 2, 1, 1, 0, 1, 1 / 2]] ∧
    answersIn [[.forest { fcfgQ with featSub := .sqrt } exData 0 none exMems], [.tree exArgs exMem]] ([0, 1] ++ List.replicate 60 0) 0 =
      some ([some [1 / 2, 1, 1, 1 / 2, 1, 1 / 2]], true) := by
  constructor <;> decide +kernel

/-- C139 fails for a tree with the bandit solver: it draws its samples from the process-wide generators. -/
theorem C139_refuted_bandit :
    answersAlone [.tree exArgsMab exMem] = [some [0, 0, 1, 1 / 2, 1, 1 / 2]] ∧
    answersIn [[.tree exArgsMab exMem], [.tree { exArgs with seed := 5 } exMem]] ([0, 1] ++ List.replicate 60 0) 0 =
      some ([some [1, 1 / 2, 1, 0, 1, 1 / 2]], true) := by
  constructor <;> decide +kernel

/-- C139 fails for a tree with RANDOM bins. -/
theorem C139_refuted_random_bins :
    answersAlone [.tree { exArgs with cfg := { cfgQ with binType := some .random, numBins := some 2 } } exMem] = [some [0, 0, 1, 1, 0, 1]] ∧
    answersIn [[.tree { exArgs with cfg := { cfgQ with binType := some .random, numBins := some 2 } } exMem],
      [.tree { exArgs with seed := 5 } exMem]] ([0, 1] ++ List.replicate 60 0) 0 = some ([some [1, 1, 1, 0, 0, 1]], true) := by
  constructor <;> decide +kernel

/-- Two boosted forests that are given the same array of targets: each trains on what the other leaves in the array. -/
theorem C139_refuted_shared_targets :
    answersAlone [.forest fcfgBoost exData 1 none exMems] = [some [5 / 3, 41 / 18, 11 / 4, 125 / 18, 137 / 12, 287 / 18]] ∧
    answersIn [[.forest fcfgBoost exData 1 none exMems], [.forest fcfgBoost exData 1 none exMems]] (List.replicate 60 [0, 1]).flatten 1 =
      some ([some [7 / 6, 7 / 6, 7 / 6, 7 / 2, 11 / 2, 8]], true) := by
  constructor <;> decide +kernel

end FF
