import Verif.Proofs.FitThreads
import Verif.Proofs.Forest
/-!
# A thread among other threads makes the steps it would make alone
-/
namespace FF
open Spec
set_option linter.unusedSectionVars false
variable {K : Type} [Field K] [LinearOrder K] [IsStrictOrderedRing K] [FloorRing K] [NpFun K] {G : Type}
variable {R : Rng K G}

/-! ### Lists of jobs -/

/-- The arrays a list of jobs writes to. -/
def writesOf (js : List (FitJob K G)) : List Nat := js.filterMap FitJob.writes

/-- The arrays a list of jobs is given. -/
def readsOf (js : List (FitJob K G)) : List Nat := js.filterMap FitJob.reads

theorem writes_reads {j : FitJob K G} {r : Nat} (h : j.writes = some r) : j.reads = some r := by
  cases j with
  | tree A mem => cases h
  | other g => cases h
  | forest cfg data labels budget mem =>
    unfold FitJob.writes at h
    dsimp only at h
    split_ifs at h
    exact h

/-! ### What a thread writes -/

/-- The thread writes only to arrays in `W`. -/
structure FitThread.Own (W : List Nat) (th : FitThread K G) : Prop where
  todo : ∀ j ∈ th.todo, ∀ r, j.writes = some r → r ∈ W
  now : ∀ k, th.now = some k → k.Own W

theorem after_keeps {W : List Nat} {th : FitThread K G} {todo : List (FitJob K G)} (ht : ∀ j ∈ todo, ∀ r, j.writes = some r → r ∈ W)
    {w : World K G} {x : Except Err ((FitWork K G ⊕ FitOut K G) × World K G)}
    (hx : ∀ a w1, x = .ok (a, w1) → Keeps W w w1 ∧ ∀ k', a = .inl k' → k'.Own W) :
    Keeps W w (th.after todo w x).2 ∧ (th.after todo w x).1.Own W := by
  cases x with
  | error e => exact ⟨.of_eq rfl, ht, fun k hk => by cases hk⟩
  | ok p =>
    obtain ⟨a, w1⟩ := p
    obtain ⟨h1, h2⟩ := hx a w1 rfl
    cases a with
    | inl k => exact ⟨h1, ht, fun k' hk => by cases hk; exact h2 k rfl⟩
    | inr o => exact ⟨h1, ht, fun k' hk => by cases hk⟩

theorem FitThread.step_keeps {W : List Nat} {th th' : FitThread K G} (h : th.Own W) {w w1 : World K G} (hs : th.step R w = some (th', w1)) :
    Keeps W w w1 ∧ th'.Own W := by
  unfold FitThread.step at hs
  cases hr : th.raised with
  | some e => rw [hr] at hs; cases hs
  | none =>
    rw [hr] at hs
    dsimp only at hs
    cases hn : th.now with
    | some k =>
      rw [hn] at hs
      have hk := after_keeps (th := th) (w := w) (x := k.step R w) h.todo (fun a w1 hx => FitWork.step_keeps (h.now k hn) hx)
      rw [Option.some.inj hs] at hk
      exact hk
    | none =>
      rw [hn] at hs
      dsimp only at hs
      cases ht : th.todo with
      | nil => rw [ht] at hs; cases hs
      | cons j js =>
        rw [ht] at hs
        have hj := h.todo
        rw [ht] at hj
        have hk := after_keeps (th := th) (w := w) (x := j.start R w) (fun j' hj' => hj j' (List.mem_cons_of_mem _ hj'))
          (fun a w1 hx => startJob_keeps (hj j List.mem_cons_self) hx)
        rw [Option.some.inj hs] at hk
        exact hk

/-! ### The thread and the program with one thread -/

/-- The rest of the program with one thread, from a point within a job. -/
def continueAlone (R : Rng K G) (w : World K G) : Option (FitWork K G) → List (FitJob K G) → List (FitOut K G) × Option Err
  | none, js => runAlone R w js
  | some k, js =>
    match k.resume R w with
    | .error e => ([], some e)
    | .ok (o, w') => (o :: (runAlone R w' js).1, (runAlone R w' js).2)

/-- Both are at the same point of a job, or between two jobs. -/
inductive NowSim (L : List Nat) (n0 : Nat) (w w' : World K G) : Option (FitWork K G) → Option (FitWork K G) → Prop
  | none : NowSim L n0 w w' none none
  | some {k k' : FitWork K G} (h : WorkSim L n0 w w' k k') : NowSim L n0 w w' (some k) (some k')

/-- What the thread has done is what the program with one thread has done, and they are at the same point. -/
structure ThreadInv (R : Rng K G) (L : List Nat) (n0 : Nat) (P : List (FitOut K G) × Option Err) (w : World K G) (th : FitThread K G) : Prop where
  quiet : ∀ j ∈ th.todo, QuietJob j ∧ ∀ r, j.reads = some r → r ∈ L
  state : ∃ outs, List.Forall₂ SameOut th.got outs ∧
    ((∃ e, th.raised = some e ∧ P = (outs, some e)) ∨
      (th.raised = none ∧ ∃ w' now', Agree L n0 w w' ∧ NowSim L n0 w w' th.now now' ∧
        P = (outs ++ (continueAlone R w' now' th.todo).1, (continueAlone R w' now' th.todo).2)))

theorem ThreadInv.keeps {L W : List Nat} {n0 : Nat} {P : List (FitOut K G) × Option Err} {w w1 : World K G} {th : FitThread K G}
    (h : ThreadInv R L n0 P w th) (hk : Keeps W w w1) (hL : ∀ r ∈ W, r ∉ L) (hW : ∀ r ∈ W, r < n0) : ThreadInv R L n0 P w1 th := by
  obtain ⟨hq, outs, ho, hs⟩ := h
  refine ⟨hq, outs, ho, ?_⟩
  rcases hs with hs | ⟨hr, w', now', ha, hn, hp⟩
  · exact Or.inl hs
  · refine Or.inr ⟨hr, w', now', ha.keeps hk hL, ?_, hp⟩
    generalize th.now = o at hn
    cases hn with
    | none => exact .none
    | some h => exact .some (h.keeps hk hL hW)

/-- What the program with one thread leaves, after a step of its job. -/
def afterStep (R : Rng K G) (outs : List (FitOut K G)) (todo : List (FitJob K G)) :
    Except Err ((FitWork K G ⊕ FitOut K G) × World K G) → List (FitOut K G) × Option Err
  | .error e => (outs, some e)
  | .ok (.inl k, w') => (outs ++ (continueAlone R w' (some k) todo).1, (continueAlone R w' (some k) todo).2)
  | .ok (.inr o, w') => (outs ++ o :: (runAlone R w' todo).1, (runAlone R w' todo).2)

theorem after_inv {L : List Nat} {n0 : Nat} {P : List (FitOut K G) × Option Err} {w : World K G} {th : FitThread K G}
    {todo : List (FitJob K G)} (hq : ∀ j ∈ todo, QuietJob j ∧ ∀ r, j.reads = some r → r ∈ L) (hr : th.raised = none)
    {outs : List (FitOut K G)} (ho : List.Forall₂ SameOut th.got outs) {x x' : Except Err ((FitWork K G ⊕ FitOut K G) × World K G)}
    (hx : StepSim (fun w w' a a' => Agree L n0 w w' ∧ WorkSim L n0 w w' a a') (fun w w' o o' => Agree L n0 w w' ∧ SameOut o o') x x')
    (hP : P = afterStep R outs todo x') :
    ThreadInv R L n0 P (th.after todo w x).2 (th.after todo w x).1 := by
  cases hx with
  | error e => exact ⟨hq, outs, ho, Or.inl ⟨e, rfl, hP⟩⟩
  | inl h => exact ⟨hq, outs, ho, Or.inr ⟨hr, _, some _, h.1, .some h.2, hP⟩⟩
  | inr h =>
    rename_i o o' w1 w1'
    refine ⟨hq, outs ++ [o'], ?_, Or.inr ⟨hr, _, none, h.1, .none, ?_⟩⟩
    · exact List.rel_append ho (.cons h.2 .nil)
    · rw [hP]
      simp only [List.append_assoc, List.singleton_append]
      rfl

/-- A step of the thread. -/
theorem ThreadInv.step {L : List Nat} {n0 : Nat} {P : List (FitOut K G) × Option Err} {w w1 : World K G} {th th' : FitThread K G}
    (h : ThreadInv R L n0 P w th) (hs : th.step R w = some (th', w1)) : ThreadInv R L n0 P w1 th' := by
  obtain ⟨hq, outs, ho, hst⟩ := h
  unfold FitThread.step at hs
  rcases hst with ⟨e, hr, _⟩ | ⟨hr, w', now', ha, hn, hp⟩
  · rw [hr] at hs; cases hs
  · rw [hr] at hs
    dsimp only at hs
    cases hn' : th.now with
    | some k =>
      rw [hn'] at hs hn
      cases hn with
      | some hk =>
        rename_i k'
        have key := after_inv (R := R) (P := P) (w := w) hq hr ho (hk.step (R := R) ha) (by
          rw [hp]
          unfold continueAlone
          dsimp only
          rw [FitWork.resume_step]
          cases k'.step R w' with
          | error e => simp [afterStep]
          | ok p =>
            obtain ⟨a, w2⟩ := p
            cases a with
            | inl k2 => rfl
            | inr o => rfl)
        rw [Option.some.inj hs] at key
        exact key
    | none =>
      rw [hn'] at hs hn
      cases hn with
      | none =>
        dsimp only at hs
        cases ht : th.todo with
        | nil => rw [ht] at hs; cases hs
        | cons j js =>
          rw [ht] at hs hq hp
          have hj := hq j List.mem_cons_self
          have key := after_inv (R := R) (P := P) (w := w) (todo := js) (fun j' hj' => hq j' (List.mem_cons_of_mem _ hj')) hr ho
            (startJob_sim (R := R) ha hj.1 hj.2) (by
              rw [hp]
              unfold continueAlone
              dsimp only
              unfold runAlone
              rw [FitJob.alone_step]
              cases j.start R w' with
              | error e => simp [afterStep]
              | ok p =>
                obtain ⟨a, w2⟩ := p
                cases a with
                | inl k2 => rfl
                | inr o => rfl)
          rw [Option.some.inj hs] at key
          exact key

/-! ### All threads -/

/-- Every thread writes only to the arrays of its jobs, and thread `i` is where the program with one thread is. -/
structure MachineInv (R : Rng K G) (w0 : World K G) (jobs : List (List (FitJob K G))) (i : Nat) (js : List (FitJob K G)) (m : FitMachine K G) :
    Prop where
  len : m.threads.length = jobs.length
  own : ∀ (a : Nat) (th : FitThread K G) (ja : List (FitJob K G)), m.threads[a]? = some th → jobs[a]? = some ja → th.Own (writesOf ja)
  inv : ∀ th : FitThread K G, m.threads[i]? = some th → ThreadInv R (readsOf js) w0.arrays.length (runAlone R w0 js) m.world th

theorem MachineInv.start {w0 : World K G} {jobs : List (List (FitJob K G))} (hA : Apart w0 jobs) {i : Nat} {js : List (FitJob K G)}
    (hi : jobs[i]? = some js) (hq : ∀ j ∈ js, QuietJob j) : MachineInv R w0 jobs i js (FitMachine.start w0 jobs) := by
  refine ⟨by simp [FitMachine.start], ?_, ?_⟩
  · intro a th ja h1 h2
    simp only [FitMachine.start, List.getElem?_map, h2, Option.map_some, Option.some.injEq] at h1
    subst h1
    refine ⟨fun j hj r hr => List.mem_filterMap.2 ⟨j, hj, hr⟩, fun k hk => by cases hk⟩
  · intro th h1
    simp only [FitMachine.start, List.getElem?_map, hi, Option.map_some, Option.some.injEq] at h1
    subst h1
    refine ⟨fun j hj => ⟨hq j hj, fun r hr => List.mem_filterMap.2 ⟨j, hj, hr⟩⟩, [], .nil, Or.inr ⟨rfl, w0, none, ?_, .none, rfl⟩⟩
    refine ⟨le_refl _, le_refl _, fun r hr => ⟨?_, rfl⟩⟩
    obtain ⟨j, hj, hr⟩ := List.mem_filterMap.1 hr
    exact hA.there js (List.mem_of_getElem? hi) j hj r hr

theorem MachineInv.step {w0 : World K G} {jobs : List (List (FitJob K G))} (hA : Apart w0 jobs) {i : Nat} {js : List (FitJob K G)}
    (hi : jobs[i]? = some js) {m : FitMachine K G} (h : MachineInv R w0 jobs i js m) (a : Nat) : MachineInv R w0 jobs i js (m.step R a) := by
  unfold FitMachine.step
  cases ht : m.threads[a]? with
  | none => exact h
  | some th =>
    dsimp only
    cases hs : th.step R m.world with
    | none => exact h
    | some p =>
      obtain ⟨th', w1⟩ := p
      dsimp only
      have halt : a < m.threads.length := by
        by_contra hc
        rw [List.getElem?_eq_none (by omega)] at ht
        cases ht
      obtain ⟨ja, hja⟩ : ∃ ja, jobs[a]? = some ja := by
        refine ⟨jobs[a]'(by have := h.len; omega), ?_⟩
        exact List.getElem?_eq_getElem _
      obtain ⟨hk, ho⟩ := FitThread.step_keeps (h.own a th ja ht hja) hs
      refine ⟨by simpa using h.len, ?_, ?_⟩
      · intro b th2 jb h1 h2
        by_cases hb : a = b
        · subst hb
          rw [List.getElem?_set_self halt] at h1
          cases h1
          rw [hja] at h2
          cases h2
          exact ho
        · rw [List.getElem?_set_ne hb] at h1
          exact h.own b th2 jb h1 h2
      · intro th2 h1
        by_cases hb : a = i
        · subst hb
          rw [List.getElem?_set_self halt] at h1
          cases h1
          exact (h.inv th ht).step hs
        · rw [List.getElem?_set_ne hb] at h1
          refine (h.inv th2 h1).keeps hk ?_ ?_
          · intro r hr hL
            obtain ⟨x, hx, hxr⟩ := List.mem_filterMap.1 hr
            obtain ⟨y, hy, hyr⟩ := List.mem_filterMap.1 hL
            exact hA.own a i ja js hja hi hb x hx y hy r hxr hyr
          · intro r hr
            obtain ⟨x, hx, hxr⟩ := List.mem_filterMap.1 hr
            exact hA.there ja (List.mem_of_getElem? hja) x hx r (writes_reads hxr)

theorem MachineInv.run {w0 : World K G} {jobs : List (List (FitJob K G))} (hA : Apart w0 jobs) {i : Nat} {js : List (FitJob K G)}
    (hi : jobs[i]? = some js) : ∀ (sched : List Nat) {m : FitMachine K G}, MachineInv R w0 jobs i js m → MachineInv R w0 jobs i js (m.run R sched)
  | [], _, h => h
  | a :: as, _, h => MachineInv.run hA hi as (h.step hA hi a)

/-! ### Every thread ends -/

/-- A bound on the steps of `tree.fit()` from the head of the loop, given the fuel and the number of leaves. -/
def passLeft : Nat → Nat → Nat
  | 0, _ => 1
  | n + 1, l => l + 3 + passLeft n (l + 2)

theorem passLeft_pos (n l : Nat) : 0 < passLeft n l := by
  cases n with
  | zero => exact Nat.one_pos
  | succ n => unfold passLeft; omega

theorem passLeft_mono : ∀ {n n' l l' : Nat}, n ≤ n' → l ≤ l' → passLeft n l ≤ passLeft n' l'
  | 0, n', l, l', _, _ => passLeft_pos n' l'
  | n + 1, 0, l, l', h, _ => by omega
  | n + 1, n' + 1, l, l', h, hl => by
    have := passLeft_mono (n := n) (n' := n') (l := l + 2) (l' := l' + 2) (by omega) (by omega)
    unfold passLeft
    omega

/-- A bound on the steps left in a call of `tree.fit()`. -/
def TreePhase.left : TreePhase K G → Nat
  | .pass n t => passLeft n t.leaves.length
  | .scan n t _ _ ids => ids.length + 2 + passLeft n (t.leaves.length + 2)
  | .split n t _ => 1 + passLeft n (t.leaves.length + 2)

theorem TreePhase.left_pos (ph : TreePhase K G) : 0 < ph.left := by
  cases ph with
  | pass n t => exact passLeft_pos _ _
  | scan n t b p ids => simp only [TreePhase.left]; omega
  | split n t b => simp only [TreePhase.left]; omega

theorem TreePhase.step_left {mem : Nat → Junk K} {glob glob' : Glob G} {ph ph' : TreePhase K G}
    (h : ph.step R mem glob = .ok (.inl ph', glob')) : ph'.left < ph.left := by
  cases ph with
  | pass n t =>
    cases n with
    | zero => cases h
    | succ n =>
      unfold TreePhase.step at h
      dsimp only at h
      cases hl : leafLimit t.cfg.maxLeafNodes t.leaves.length with
      | error e => rw [hl] at h; cases h
      | ok b =>
        rw [hl] at h
        cases b with
        | true => cases h
        | false =>
          cases h
          simp only [TreePhase.left, passLeft]
          omega
  | scan n t best pos ids =>
    cases ids with
    | nil =>
      cases h
      simp only [TreePhase.left, List.length_nil]
      omega
    | cons id ids =>
      unfold TreePhase.step at h
      dsimp only at h
      cases hl : scanLeaf R mem pos id { t := t, glob := glob, best := best } with
      | error e => rw [hl] at h; cases h
      | ok o =>
        rw [hl] at h
        cases o with
        | none =>
          cases h
          simp only [TreePhase.left, List.length_cons]
          omega
        | some s =>
          have hc := (scanLeaf_cfg hl).2
          cases h
          simp only [TreePhase.left, List.length_cons]
          rw [hc]
          dsimp only
          omega
  | split n t best =>
    unfold TreePhase.step at h
    dsimp only at h
    cases hl : splitBest R mem { t := t, glob := glob, best := best } with
    | error e => rw [hl] at h; cases h
    | ok p =>
      obtain ⟨again, t', gl⟩ := p
      have hc := (splitBest_cfg hl).2
      rw [hl] at h
      dsimp only at h
      cases hd : getDepth t' with
      | error e => rw [hd] at h; cases h
      | ok d =>
        rw [hd] at h
        cases again with
        | false => cases h
        | true =>
          cases h
          simp only [TreePhase.left]
          have := passLeft_mono (n := n) (n' := n) (l := t'.leaves.length) (l' := t.leaves.length + 2) (le_refl _) hc
          omega

theorem TreePhase.init_left {s : Nat} {cfg : TreeCfg K} {data : List (List K)} {labels : List K} {disc : DiscDict K} {budget : Option Int}
    {rows feats : List Nat} {t : Tree K G} {glob : Glob G} (h : Tree.init R cfg data labels disc budget s (some rows) (some feats) = .ok (t, glob))
    {ph : TreePhase K G} (hs : TreePhase.start t = .ok ph) : ph.left = passLeft (rows.length + 2) 1 := by
  have ht : t.leaves = [] ∧ ∃ nd, t.nodes = [nd] ∧ nd.nData = rows.length := by
    unfold Tree.init at h
    by_cases hl : data.length ≠ labels.length
    · rw [if_pos hl] at h; cases h
    · rw [if_neg hl] at h
      dsimp only at h
      simp only [Option.getD_some] at h
      cases hd : defaultFeats data (some feats) with
      | error e => rw [hd] at h; cases h
      | ok fs =>
        rw [hd] at h
        dsimp only at h
        generalize hn : Node.init R (R.seed s) _ _ _ _ _ _ _ _ _ = o at h
        cases o with
        | error e => cases h
        | ok p =>
          obtain ⟨nd, g⟩ := p
          cases h
          exact ⟨rfl, nd, rfl, (Node_init_fresh hn).nData_eq⟩
  obtain ⟨h1, nd, h2, h3⟩ := ht
  unfold TreePhase.start at hs
  cases hd : maybeDiscrete t.cfg.makeDiscrete t.data t.discrete with
  | error e => rw [hd] at hs; cases hs
  | ok dd =>
    rw [hd] at hs
    dsimp only at hs
    cases hsp : t.cfg.splitter <;> rw [hsp] at hs <;> cases hs
    simp [TreePhase.left, fitFuel, h1, h2, h3]

/-- A bound on the steps for one tree of a forest with `n` rows. -/
def treeLeft (n : Nat) : Nat := passLeft (n + 2) 1 + 5

/-- A bound on the steps left in a call of `forest.fit()`. -/
def ForestPhase.left : ForestPhase K G → Nat
  | .pass data _ is _ => is.length * treeLeft data.length + 1
  | .seed c => c.rest.length * treeLeft c.data.length + passLeft (c.rows.length + 2) 1 + 5
  | .build c _ => c.rest.length * treeLeft c.data.length + passLeft (c.rows.length + 2) 1 + 4
  | .grow c ph => c.rest.length * treeLeft c.data.length + ph.left + 3
  | .keep c _ => c.rest.length * treeLeft c.data.length + 2

theorem ForestPhase.left_pos (ph : ForestPhase K G) : 0 < ph.left := by
  cases ph <;> simp only [ForestPhase.left] <;> omega

theorem drawn_length {g g1 g2 : G} {N F : Nat} {cfg : ForestCfg K} {sub cols rows : List Nat} (h1 : subsets R g N F cfg = .ok (sub, cols, g1))
    (h2 : bootstrapIdcs R g1 N cfg sub = .ok (rows, g2)) : rows.length ≤ N := by
  have hs : sub.length ≤ N := by
    unfold subsets at h1
    by_cases hc : cfg.alphaN < 1 ∨ cfg.alphaF < 1
    · rw [if_pos hc] at h1
      cases h3 : subsetIdcs R g N cfg.alphaN with
      | error e => rw [h3] at h1; cases h1
      | ok p =>
        obtain ⟨r, g3⟩ := p
        rw [h3] at h1
        dsimp only at h1
        cases h4 : subsetIdcs R g3 F cfg.alphaF with
        | error e => rw [h4] at h1; cases h1
        | ok q =>
          obtain ⟨c, g4⟩ := q
          rw [h4] at h1
          cases h1
          unfold subsetIdcs at h3
          split_ifs at h3
          obtain ⟨h5, h6, _⟩ := rngChoice_ok h3
          rw [List.length_range] at h5
          omega
    · rw [if_neg hc] at h1
      cases h1
      rw [List.length_range]
  unfold bootstrapIdcs at h2
  by_cases hb : cfg.bootstrap = true
  · rw [if_pos hb] at h2
    rw [(rngChoiceRep_ok h2).1]
  · rw [if_neg hb] at h2
    cases h2
    exact hs

theorem ForestPhase.step_left {mem : Nat → Nat → Junk K} {w w' : World K G} {ph ph' : ForestPhase K G}
    (h : ph.step R mem w = .ok (.inl ph', w')) : ph'.left < ph.left := by
  cases ph with
  | pass data F is f =>
    cases is with
    | nil => cases h
    | cons i is =>
      unfold ForestPhase.step at h
      dsimp only at h
      cases h1 : subsets R f.rng data.length F f.cfg with
      | error e => rw [h1] at h; cases h
      | ok p =>
        obtain ⟨sub, feats, g1⟩ := p
        rw [h1] at h
        dsimp only at h
        by_cases hsp : spent f.remaining = true
        · rw [if_pos hsp] at h; cases h
        · rw [if_neg hsp] at h
          cases hr : (if f.cfg.boosting = true then f.newRef else f.orgRef) with
          | none => rw [hr] at h; cases h
          | some ref =>
            rw [hr] at h
            dsimp only at h
            cases h2 : bootstrapIdcs R g1 data.length f.cfg sub with
            | error e => rw [h2] at h; cases h
            | ok q =>
              obtain ⟨rows, g2⟩ := q
              rw [h2] at h
              have hl := drawn_length h1 h2
              cases h
              simp only [ForestPhase.left, List.length_cons, treeLeft, Nat.add_mul, Nat.one_mul]
              have := passLeft_mono (n := rows.length + 2) (n' := data.length + 2) (l := 1) (l' := 1) (by omega) (le_refl _)
              omega
  | seed c =>
    cases h
    simp only [ForestPhase.left]
    omega
  | build c s =>
    unfold ForestPhase.step at h
    dsimp only at h
    cases h1 : Tree.init R c.f.treeCfg c.data (w.arrays.getD c.ref []) c.f.discrete c.f.remaining s (some c.rows) (some c.feats) with
    | error e => rw [h1] at h; cases h
    | ok p =>
      obtain ⟨t, gl⟩ := p
      rw [h1] at h
      dsimp only at h
      cases h2 : TreePhase.start t with
      | error e => rw [h2] at h; cases h
      | ok ph =>
        rw [h2] at h
        have hl := TreePhase.init_left h1 h2
        cases h
        simp only [ForestPhase.left]
        omega
  | grow c ph =>
    unfold ForestPhase.step at h
    dsimp only at h
    cases h1 : ph.step R (mem c.i) w.glob with
    | error e => rw [h1] at h; cases h
    | ok p =>
      obtain ⟨a, gl⟩ := p
      rw [h1] at h
      cases a with
      | inl ph2 =>
        have hl := TreePhase.step_left h1
        cases h
        simp only [ForestPhase.left]
        omega
      | inr t =>
        cases h
        simp only [ForestPhase.left]
        omega
  | keep c t =>
    unfold ForestPhase.step at h
    dsimp only at h
    by_cases hk : keepTree c.f.remaining t.numQueries = true
    · rw [if_pos hk] at h
      cases h1 : boostStep c.f c.data t c.i c.rows w with
      | error e => rw [h1] at h; cases h
      | ok p =>
        obtain ⟨w2, t2⟩ := p
        rw [h1] at h
        dsimp only at h
        by_cases hb : (match c.f.remaining.map (fun b => b - (t.numQueries : Int)) with | none => true | some b => decide (-buffer < b)) = true
        · rw [if_pos (by exact hb)] at h
          cases h
          simp only [ForestPhase.left]
          omega
        · rw [if_neg (by exact hb)] at h
          cases h
    · rw [if_neg hk] at h
      cases h

/-- A bound on the steps left in a job. -/
def FitWork.left : FitWork K G → Nat
  | .tree _ t => 1 + (match TreePhase.start t with | .ok ph => ph.left | .error _ => 0)
  | .treeFit _ ph => ph.left
  | .forest _ f => 3 + f.cfg.nEstimators * treeLeft (f.data.getD []).length
  | .forestFit _ ph => ph.left

theorem FitWork.left_pos (k : FitWork K G) : 0 < k.left := by
  cases k with
  | tree mem t => simp only [FitWork.left]; omega
  | treeFit mem ph => exact ph.left_pos
  | forest mem f => simp only [FitWork.left]; omega
  | forestFit mem ph => exact ph.left_pos

theorem ForestPhase.start_left {f : Forest K G} {w w' : World K G} {ph : ForestPhase K G} (h : ForestPhase.start f w = .ok (ph, w')) :
    ph.left = f.cfg.nEstimators * treeLeft (f.data.getD []).length + 1 := by
  unfold ForestPhase.start at h
  cases hd : f.data with
  | none => rw [hd] at h; cases h
  | some d =>
    rw [hd] at h
    cases d with
    | nil => cases h
    | cons row rows =>
      dsimp only at h
      cases h1 : fitTargets f w with
      | error e => rw [h1] at h; cases h
      | ok p =>
        obtain ⟨f1, w1⟩ := p
        have hc : f1.cfg = f.cfg := by
          unfold fitTargets at h1
          split at h1
          all_goals first
            | (split at h1 <;> first | (cases h1; done) | (cases h1; rfl))
            | (cases h1; rfl)
        rw [h1] at h
        dsimp only at h
        cases h2 : maybeDiscrete f1.cfg.makeDiscrete (row :: rows) f1.discrete with
        | error e => rw [h2] at h; cases h
        | ok dd =>
          rw [h2] at h
          dsimp only at h
          have key : ∀ f2 : Forest K G, f2.cfg = f.cfg → (ForestPhase.pass (row :: rows) row.length (List.range f2.cfg.nEstimators)
              { f2 with trees := [] } : ForestPhase K G).left = f.cfg.nEstimators * treeLeft ((some (row :: rows)).getD []).length + 1 := by
            intro f2 h2
            simp only [ForestPhase.left, List.length_range, h2, Option.getD_some]
          have hph := congrArg Prod.fst (Except.ok.inj h)
          dsimp only at hph
          rw [← hph]
          refine key _ ?_
          split_ifs <;> exact hc

theorem FitWork.step_left {w w' : World K G} {k k' : FitWork K G} (h : k.step R w = .ok (.inl k', w')) : k'.left < k.left := by
  cases k with
  | tree mem t =>
    unfold FitWork.step at h
    dsimp only at h
    cases h1 : TreePhase.start t with
    | error e => rw [h1] at h; cases h
    | ok ph =>
      rw [h1] at h
      cases h
      simp only [FitWork.left, h1]
      omega
  | treeFit mem ph =>
    unfold FitWork.step at h
    dsimp only at h
    cases h1 : ph.step R mem w.glob with
    | error e => rw [h1] at h; cases h
    | ok p =>
      obtain ⟨a, gl⟩ := p
      rw [h1] at h
      cases a with
      | inl ph2 => cases h; exact TreePhase.step_left h1
      | inr t => cases h
  | forest mem f =>
    unfold FitWork.step at h
    dsimp only at h
    cases h1 : ForestPhase.start f w with
    | error e => rw [h1] at h; cases h
    | ok p =>
      obtain ⟨ph, w2⟩ := p
      rw [h1] at h
      have hl := ForestPhase.start_left h1
      cases h
      simp only [FitWork.left]
      omega
  | forestFit mem ph =>
    unfold FitWork.step at h
    dsimp only at h
    cases h1 : ph.step R mem w with
    | error e => rw [h1] at h; cases h
    | ok p =>
      obtain ⟨a, w2⟩ := p
      rw [h1] at h
      cases a with
      | inl ph2 => cases h; exact ForestPhase.step_left h1
      | inr t => cases h

/-- A bound on the steps of a job. -/
def FitJob.left (R : Rng K G) : FitJob K G → Nat
  | .tree A mem =>
    1 + (match Tree.init R A.cfg A.data A.labels A.disc A.budget A.seed A.idcs A.feats with
      | .ok (t, _) => (FitWork.tree mem t).left
      | .error _ => 0)
  | .forest cfg data _ _ _ => 4 + cfg.nEstimators * treeLeft data.length
  | .other _ => 1

theorem FitJob.left_pos (j : FitJob K G) : 0 < j.left R := by
  cases j <;> simp only [FitJob.left] <;> omega

theorem FitJob.start_left {w w' : World K G} {j : FitJob K G} {k : FitWork K G} (h : j.start R w = .ok (.inl k, w')) : k.left < j.left R := by
  cases j with
  | tree A mem =>
    unfold FitJob.start at h
    dsimp only at h
    cases h1 : Tree.init R A.cfg A.data A.labels A.disc A.budget A.seed A.idcs A.feats with
    | error e => rw [h1] at h; cases h
    | ok p =>
      obtain ⟨t, gl⟩ := p
      rw [h1] at h
      cases h
      simp only [FitJob.left, h1]
      omega
  | other g => cases h
  | forest cfg data labels budget mem =>
    unfold FitJob.start at h
    dsimp only at h
    cases h1 : Forest.init R w cfg none (some data) (some labels) budget with
    | error e => rw [h1] at h; cases h
    | ok p =>
      obtain ⟨f, w2⟩ := p
      rw [h1] at h
      have hc : f.cfg.nEstimators = cfg.nEstimators ∧ f.data = some data := by
        unfold Forest.init at h1
        dsimp only at h1
        by_cases c1 : cfg.boosting = true ∧ cfg.boostingLr = none
        · rw [if_pos c1] at h1; cases h1
        · rw [if_neg c1] at h1
          by_cases c2 : cfg.boosting = true ∧ cfg.isCls = true
          · rw [if_pos c2] at h1; cases h1
          · rw [if_neg c2] at h1
            by_cases c3 : cfg.oobScore = true ∧ ¬ cfg.bootstrap = true
            · rw [if_pos c3] at h1; cases h1
            · rw [if_neg c3] at h1
              cases h1
              exact ⟨rfl, rfl⟩
      cases h
      simp only [FitJob.left, FitWork.left, hc.1, hc.2, Option.getD_some]
      omega

/-- A bound on the steps a thread has left. -/
def FitThread.left (R : Rng K G) (th : FitThread K G) : Nat :=
  match th.raised with
  | some _ => 0
  | none => (th.now.map FitWork.left).getD 0 + (th.todo.map (FitJob.left R)).sum

theorem after_left {w : World K G} {th : FitThread K G} {todo : List (FitJob K G)} (hr : th.raised = none) {b : Nat} (hb : 0 < b)
    {x : Except Err ((FitWork K G ⊕ FitOut K G) × World K G)} (hx : ∀ k w', x = .ok (.inl k, w') → k.left < b) :
    (th.after todo w x).1.left R < b + (todo.map (FitJob.left R)).sum := by
  cases x with
  | error e =>
    show 0 < _
    omega
  | ok p =>
    obtain ⟨a, w1⟩ := p
    cases a with
    | inl k =>
      have := hx k w1 rfl
      simp only [FitThread.after, FitThread.left, hr, Option.map_some, Option.getD_some]
      omega
    | inr o =>
      simp only [FitThread.after, FitThread.left, hr, Option.map_none, Option.getD_none]
      omega

theorem FitThread.step_left {w w1 : World K G} {th th' : FitThread K G} (h : th.step R w = some (th', w1)) : th'.left R < th.left R := by
  unfold FitThread.step at h
  cases hr : th.raised with
  | some e => rw [hr] at h; cases h
  | none =>
    rw [hr] at h
    dsimp only at h
    cases hn : th.now with
    | some k =>
      rw [hn] at h
      have hk := after_left (R := R) (w := w) (th := th) (todo := th.todo) hr k.left_pos (fun k' w' hx => FitWork.step_left (R := R) (w := w) hx)
      rw [Option.some.inj h] at hk
      have e : th.left R = k.left + (th.todo.map (FitJob.left R)).sum := by
        simp only [FitThread.left, hr, hn, Option.map_some, Option.getD_some]
      rw [e]
      exact hk
    | none =>
      rw [hn] at h
      dsimp only at h
      cases ht : th.todo with
      | nil => rw [ht] at h; cases h
      | cons j js =>
        rw [ht] at h
        have hk := after_left (R := R) (w := w) (th := th) (todo := js) hr (j.left_pos (R := R))
          (fun k' w' hx => FitJob.start_left (R := R) (w := w) hx)
        rw [Option.some.inj h] at hk
        have e : th.left R = j.left R + (js.map (FitJob.left R)).sum := by
          simp only [FitThread.left, hr, hn, ht, Option.map_none, Option.getD_none, List.map_cons, List.sum_cons]
          omega
        rw [e]
        exact hk

theorem FitThread.step_none {w : World K G} {th : FitThread K G} (h : th.step R w = none) : th.Ended := by
  unfold FitThread.step at h
  cases hr : th.raised with
  | some e => exact Or.inl (by simp [hr])
  | none =>
    rw [hr] at h
    dsimp only at h
    cases hn : th.now with
    | some k => rw [hn] at h; cases h
    | none =>
      rw [hn] at h
      dsimp only at h
      cases ht : th.todo with
      | nil => exact Or.inr ⟨hn, ht⟩
      | cons j js => rw [ht] at h; cases h

theorem FitThread.Ended.step {w : World K G} {th : FitThread K G} (h : th.Ended) : th.step R w = none := by
  unfold FitThread.step
  rcases h with h | ⟨h1, h2⟩
  · cases hr : th.raised with
    | none => exact absurd hr h
    | some e => rfl
  · rw [h1, h2]
    cases th.raised <;> rfl

theorem step_threads (m : FitMachine K G) (a i : Nat) (th : FitThread K G) (h : m.threads[i]? = some th) :
    (a = i ∧ ∃ p, th.step R m.world = some p ∧ (m.step R a).threads[i]? = some p.1) ∨
      ((a = i → th.step R m.world = none) ∧ (m.step R a).threads[i]? = some th) := by
  unfold FitMachine.step
  by_cases ha : a = i
  · subst ha
    rw [h]
    dsimp only
    have halt : a < m.threads.length := by
      by_contra hc
      rw [List.getElem?_eq_none (by omega)] at h
      cases h
    cases hs : th.step R m.world with
    | none => exact Or.inr ⟨fun _ => rfl, h⟩
    | some p =>
      obtain ⟨th', w'⟩ := p
      refine Or.inl ⟨rfl, (th', w'), rfl, ?_⟩
      dsimp only
      rw [List.getElem?_set_self halt]
  · refine Or.inr ⟨fun he => absurd he ha, ?_⟩
    cases m.threads[a]? with
    | none => exact h
    | some th2 =>
      dsimp only
      cases th2.step R m.world with
      | none => exact h
      | some p =>
        obtain ⟨th', w'⟩ := p
        dsimp only
        rw [List.getElem?_set_ne ha]
        exact h

theorem ended_stays : ∀ (sched : List Nat) (m : FitMachine K G) (i : Nat) (th : FitThread K G), m.threads[i]? = some th → th.Ended →
    (m.run R sched).threads[i]? = some th
  | [], _, _, _, h, _ => h
  | a :: as, m, i, th, h, he => by
    unfold FitMachine.run
    refine ended_stays as _ i th ?_ he
    rcases step_threads (R := R) m a i th h with ⟨_, p, hp, _⟩ | ⟨_, h2⟩
    · rw [he.step] at hp; cases hp
    · exact h2

/-- Each of its turns brings a thread closer to its end. -/
theorem run_left : ∀ (sched : List Nat) (m : FitMachine K G) (i : Nat) (th : FitThread K G), m.threads[i]? = some th →
    ∃ th', (m.run R sched).threads[i]? = some th' ∧ (th'.Ended ∨ th'.left R + sched.count i ≤ th.left R)
  | [], m, i, th, h => ⟨th, h, Or.inr (by simp)⟩
  | a :: as, m, i, th, h => by
    unfold FitMachine.run
    rcases step_threads (R := R) m a i th h with ⟨ha, p, hp, h1⟩ | ⟨ha, h1⟩
    · obtain ⟨th', h2, h3⟩ := run_left as _ i p.1 h1
      refine ⟨th', h2, h3.imp id (fun h4 => ?_)⟩
      have := FitThread.step_left (R := R) (w := m.world) (th := th) (th' := p.1) (w1 := p.2) hp
      subst ha
      rw [List.count_cons_self]
      omega
    · by_cases hai : a = i
      · have he := FitThread.step_none (ha hai)
        exact ⟨th, ended_stays as _ i th h1 he, Or.inl he⟩
      · obtain ⟨th', h2, h3⟩ := run_left as _ i th h1
        refine ⟨th', h2, h3.imp id (fun h4 => ?_)⟩
        rw [List.count_cons_of_ne hai]
        exact h4

end FF
