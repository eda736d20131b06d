import Verif.Spec.StabTest
import Verif.Props.Experiment
import Verif.Props.Verdict

set_option linter.unusedSectionVars false

/-!
# The stability test (C125)
-/

namespace FF

open Spec

variable {K : Type} [Field K] [LinearOrder K] [IsStrictOrderedRing K] [FloorRing K] [NpFun K] {G : Type}

section
variable {R : Rng K G} {sortIdx : List K → List Nat}

theorem prefix_of_get : ∀ {l l' : List (List K)}, (∀ r < l.length, l'[r]? = l[r]?) → l <+: l' := by
  intro l l' h
  rw [List.prefix_iff_getElem?]
  intro i hi
  rw [h i hi, List.getElem?_eq_getElem hi]

/-- The stability of one object: what it is, and what it leaves. -/
theorem stabOne_is {mem : Nat → Nat → Nat → Junk K} {s : StabTest K} {cfg : PermCfg K} {seed : Nat} {data : List (List K)} {ref : Nat}
    {w w' : World K G} {x : K} {arrays : List (List K)} (ha : arrays <+: w.arrays)
    (h : stabOne R mem sortIdx s cfg seed data ref w = .ok (x, w')) :
    StabilityOf R sortIdx cfg s.score s.best data ref arrays seed x ∧ arrays <+: w'.arrays := by
  unfold stabOne at h
  cases hi : PermImp.init R w cfg s.score seed data ref with
  | error e => rw [hi] at h; cases h
  | ok q =>
    obtain ⟨p, w1⟩ := q
    rw [hi] at h
    dsimp only at h
    have hw1 : w1 = ⟨setSeed R seed, w.arrays⟩ := by
      unfold PermImp.init at hi
      split_ifs at hi
      cases hi
      rfl
    cases hb : p.runBaseline R mem sortIdx w1 s.best with
    | error e => rw [hb] at h; cases h
    | ok q =>
      obtain ⟨v, p', w2⟩ := q
      rw [hb] at h
      cases v with
      | fin y =>
        simp only [Except.ok.injEq, Prod.mk.injEq] at h
        obtain ⟨rfl, rfl⟩ := h
        constructor
        · obtain ⟨more, hm⟩ := ha
          refine ⟨mem, more, fun g => ⟨p, w1, p', w2, ?_, hb⟩⟩
          rw [← hi, C111_construct R cfg s.score seed data ref ⟨g, arrays ++ more⟩ w hm]
        · unfold PermImp.runBaseline at hb
          cases hq : PermImp.importanceArray R mem p w1 with
          | error e => rw [hq] at hb; cases hb
          | ok q =>
            obtain ⟨a, p1, w3⟩ := q
            rw [hq] at hb
            dsimp only at hb
            have hw : w3 = w2 := by
              repeat' split at hb
              all_goals first
                | (cases hb; rfl)
                | (cases hb)
            subst hw
            obtain ⟨gs, _, _, _, h4, _⟩ := importanceArray_built R hq
            apply ha.trans
            apply prefix_of_get
            intro r hr
            rw [h4 r (by rw [hw1]; exact hr), hw1]
      | pinf => cases h
      | ninf => cases h
      | nan => cases h

theorem seedGen_add (g : G) (m n : Nat) : seedGen R (seedGen R g m) n = seedGen R g (m + n) := by
  induction n with
  | zero => rfl
  | succ n ih => rw [seedGen, ih]; rfl

theorem stabTrials_is {mem : Nat → Bool → Nat → Nat → Nat → Junk K} {s : StabTest K} {data : List (List K)} {ref : Nat}
    {arrays : List (List K)} : ∀ (is : List Nat) {g : G} {w w' : World K G} {l : List (K × K)}, arrays <+: w.arrays →
    stabTrials R mem sortIdx s data ref is g w = .ok (l, w') →
    l.length = is.length ∧ arrays <+: w'.arrays ∧ ∀ (i : Nat) (q : K × K), l[i]? = some q →
      StabilityOf R sortIdx s.exactCfg s.score s.best data ref arrays (seedAt R g (2 * i)) q.1 ∧
      StabilityOf R sortIdx s.mabCfg s.score s.best data ref arrays (seedAt R g (2 * i + 1)) q.2 := by
  intro is
  induction is with
  | nil =>
    intro g w w' l ha h
    cases h
    exact ⟨rfl, ha, fun i q hq => by simp at hq⟩
  | cons j is ih =>
    intro g w w' l ha h
    unfold stabTrials at h
    dsimp only at h
    cases h1 : stabOne R (mem j false) sortIdx s s.exactCfg (R.randint g maxSeed).1 data ref w with
    | error e => rw [h1] at h; cases h
    | ok q =>
      obtain ⟨x, w1⟩ := q
      rw [h1] at h
      dsimp only at h
      cases h2 : stabOne R (mem j true) sortIdx s s.mabCfg (R.randint (R.randint g maxSeed).2 maxSeed).1 data ref w1 with
      | error e => rw [h2] at h; cases h
      | ok q =>
        obtain ⟨y, w2⟩ := q
        rw [h2] at h
        dsimp only at h
        cases h3 : stabTrials R mem sortIdx s data ref is (R.randint (R.randint g maxSeed).2 maxSeed).2 w2 with
        | error e => rw [h3] at h; cases h
        | ok q =>
          obtain ⟨l', w3⟩ := q
          rw [h3] at h
          simp only [Except.ok.injEq, Prod.mk.injEq] at h
          obtain ⟨rfl, rfl⟩ := h
          obtain ⟨a1, a2⟩ := stabOne_is ha h1
          obtain ⟨b1, b2⟩ := stabOne_is a2 h2
          obtain ⟨c1, c2, c3⟩ := ih b2 h3
          refine ⟨by simp [c1], c2, ?_⟩
          intro i q hq
          cases i with
          | zero =>
            cases hq
            exact ⟨a1, b1⟩
          | succ i =>
            have := c3 i q hq
            have e : (R.randint (R.randint g maxSeed).2 maxSeed).2 = seedGen R g 2 := rfl
            rw [e] at this
            unfold seedAt at this ⊢
            rw [seedGen_add, seedGen_add] at this
            rw [show 2 * (i + 1) = 2 + 2 * i by ring, show 2 + 2 * i + 1 = 2 + (2 * i + 1) by ring]
            exact this

end

section
variable (R : Rng K G) (mem : Nat → Bool → Nat → Nat → Nat → Junk K) (sortIdx : List K → List Nat)

/-- C125: what a stability test that succeeds says. The intervals it returns are those of the stabilities of `num_trials` pairs of new objects whose
seeds come from the seed of the test alone; nothing that happened in the process before matters; the caller's arrays are as they were. The whole
interval of the bandit solver is above the whole interval of the exact solver. -/
theorem C125_success (s : StabTest K) (data : List (List K)) (ref : Nat) (w w' : World K G) (e m : K × K)
    (h : stabilityTest R mem sortIdx s data ref w = .ok ((e, m), w')) :
    (∃ xs ys, StabilitiesOf R sortIdx s s.exactCfg s.mabCfg data ref w.arrays xs ys ∧ e = confInterval s.z xs ∧ m = confInterval s.z ys) ∧
    e.2 < m.1 ∧ ∀ r < w.arrays.length, w'.arrays[r]? = w.arrays[r]? := by
  unfold stabilityTest at h
  cases ht : stabTrials R mem sortIdx s data ref (List.range s.trials) (R.seed s.seed) { w with glob := { w.glob with np := R.seed s.seed } } with
  | error e => rw [ht] at h; cases h
  | ok q =>
    obtain ⟨l, w1⟩ := q
    rw [ht] at h
    dsimp only at h
    obtain ⟨h1, h2, h3⟩ := stabTrials_is (arrays := w.arrays) (List.range s.trials)
      (w := { w with glob := { w.glob with np := R.seed s.seed } }) (List.prefix_refl _) ht
    rw [List.length_range] at h1
    by_cases hl : l = []
    · rw [if_pos hl] at h; cases h
    · rw [if_neg hl] at h
      by_cases ho : stabOverlap s.z (l.map Prod.fst) (l.map Prod.snd) = true
      · rw [if_pos ho] at h; cases h
      · rw [if_neg ho] at h
        cases h
        refine ⟨⟨l.map Prod.fst, l.map Prod.snd, ⟨by simp [h1], by simp [h1], ?_, ?_⟩, rfl, rfl⟩, ?_, fun r hr => prefix_get h2 hr⟩
        · intro i x hx
          rw [List.getElem?_map, Option.map_eq_some_iff] at hx
          obtain ⟨q, hq, rfl⟩ := hx
          exact (h3 i q hq).1
        · intro i x hx
          rw [List.getElem?_map, Option.map_eq_some_iff] at hx
          obtain ⟨q, hq, rfl⟩ := hx
          exact (h3 i q hq).2
        · unfold stabOverlap at ho
          rw [decide_eq_true_iff, not_le] at ho
          exact ho

/-- C125, like with like, when no `max_leaf_nodes` is given: the two objects of a trial have the same settings but for the solver. -/
theorem C125_same_settings_partial (s : StabTest K) (h : s.cfg.maxLeafNodes = none) (data : List (List K)) (ref : Nat) (w w' : World K G) (e m : K × K)
    (hok : stabilityTest R mem sortIdx s data ref w = .ok ((e, m), w')) :
    ∃ xs ys, StabilitiesOf R sortIdx s { s.cfg with solver := .exact } { s.cfg with solver := .mab } data ref w.arrays xs ys ∧
      e = confInterval s.z xs ∧ m = confInterval s.z ys := by
  obtain ⟨⟨xs, ys, h1, h2, h3⟩, _⟩ := C125_success R mem sortIdx s data ref w w' e m hok
  refine ⟨xs, ys, ?_, h2, h3⟩
  have : s.mabCfg = { s.cfg with solver := .mab } := by
    unfold StabTest.mabCfg
    rw [← h]
  rw [this] at h1
  exact h1

/-- C125: the answer does not depend on the state of the process-wide generators. -/
theorem C125_reproducible (s : StabTest K) (data : List (List K)) (ref : Nat) (w w2 : World K G) (h : w.arrays = w2.arrays) :
    (stabilityTest R mem sortIdx s data ref w).map Prod.fst = (stabilityTest R mem sortIdx s data ref w2).map Prod.fst := by
  have one : ∀ (m : Nat → Nat → Nat → Junk K) (cfg : PermCfg K) (seed : Nat) (u u2 : World K G), u.arrays = u2.arrays →
      stabOne R m sortIdx s cfg seed data ref u = stabOne R m sortIdx s cfg seed data ref u2 := by
    intro m cfg seed u u2 hu
    unfold stabOne
    rw [C111_construct R cfg s.score seed data ref u u2 hu]
  have key : ∀ (is : List Nat) (g : G) (u u2 : World K G), u.arrays = u2.arrays →
      (stabTrials R mem sortIdx s data ref is g u).map Prod.fst = (stabTrials R mem sortIdx s data ref is g u2).map Prod.fst := by
    intro is g u u2 hu
    cases is with
    | nil => rfl
    | cons i is =>
      unfold stabTrials
      dsimp only
      rw [one _ _ _ u u2 hu]
  have hk := key (List.range s.trials) (R.seed s.seed) { w with glob := { w.glob with np := R.seed s.seed } }
    { w2 with glob := { w2.glob with np := R.seed s.seed } } h
  unfold stabilityTest
  cases h1 : stabTrials R mem sortIdx s data ref (List.range s.trials) (R.seed s.seed) { w with glob := { w.glob with np := R.seed s.seed } } with
  | error e =>
    cases h2 : stabTrials R mem sortIdx s data ref (List.range s.trials) (R.seed s.seed) { w2 with glob := { w2.glob with np := R.seed s.seed } } with
    | error e2 => rw [h1, h2] at hk; cases hk; rfl
    | ok q => rw [h1, h2] at hk; cases hk
  | ok q =>
    cases h2 : stabTrials R mem sortIdx s data ref (List.range s.trials) (R.seed s.seed) { w2 with glob := { w2.glob with np := R.seed s.seed } } with
    | error e2 => rw [h1, h2] at hk; cases hk
    | ok q2 =>
      rw [h1, h2] at hk
      obtain ⟨l, w3⟩ := q
      obtain ⟨l2, w4⟩ := q2
      cases hk
      dsimp only
      split_ifs <;> rfl

end

/-! ### Where it fails, and examples -/

/-- Six points with three columns. -/
def stabData : List (List ℚ) := [[0, 2, 5], [1, 3, 1], [1, 2, 4], [0, 7, 2], [4, 1, 0], [3, 9, 3]]

/-- A test with two trials of two forests of two trees. -/
def stabQ (leaves : Option Nat) (best : Option Int) (seed : Nat) : StabTest ℚ where
  cfg :=
    { permCfgQ with
      maxLeafNodes := leaves
      metric := .spearman }
  score := .impurity
  seed := seed
  trials := 2
  best := best
  z := 1 / 10

/-- A test that succeeds. -/
example : (match stabilityTest rngQ (fun _ _ _ => exMems) sortDesc (stabQ none none 4) stabData 0 exWorld with
    | .ok ((e, m), _) => decide (e.2 < m.1)
    | .error _ => false) = true := by decide +kernel

/-- The stabilities of its trials. -/
example : ((stabTrials rngQ (fun _ _ _ => exMems) sortDesc (stabQ none none 4) stabData 0 [0, 1] (rngQ.seed 4) exWorld).toOption).map Prod.fst =
    some [(3 / 4, 3 / 4), (0, 1 / 2)] := by decide +kernel

/-- The test is one-sided: here both trials give 1 for the exact solver and -1/2 for the bandits, and the test fails because the stabilities
"overlap". -/
theorem C125_refuted_one_sided :
    ((stabTrials rngQ (fun _ _ _ => exMems) sortDesc (stabQ none (some 2) 1) stabData 0 [0, 1] (rngQ.seed 1) exWorld).toOption).map Prod.fst =
      some [(1, -1 / 2), (1, -1 / 2)] ∧
    (match stabilityTest rngQ (fun _ _ _ => exMems) sortDesc (stabQ none (some 2) 1) stabData 0 exWorld with
    | .error (.assertion _) => true
    | _ => false) = true := by decide +kernel

/-- The numbers of leaves of all trees of a new object. -/
def leafCounts (cfg : PermCfg ℚ) : Option (List (List Nat)) :=
  (do let (p, w) ← PermImp.init rngQ exWorld cfg .impurity 3 exData 0
      let (_, p, _) ← PermImp.importanceArray rngQ (fun _ => exMems) p w
      pure (p.forests.map (fun (f : Forest ℚ Nat) => f.trees.map (fun (t : Tree ℚ Nat) =>
        t.nodes.countP (fun (n : Node ℚ) => n.splitFeature.isNone))))).toOption

/-- C125 is false when `max_leaf_nodes` is given: only the exact solver is held to it. With two leaves allowed, the object with the exact solver has
trees with two leaves, the one with the bandit solver has trees with three — with the limit it would have had trees with two. -/
theorem C125_refuted_limits : leafCounts (stabQ (some 2) none 3).exactCfg = some [[2, 2], [2, 2]] ∧
    leafCounts (stabQ (some 2) none 3).mabCfg = some [[2, 3], [3, 2]] ∧
    leafCounts { (stabQ (some 2) none 3).cfg with solver := .mab } = some [[2, 2], [2, 2]] := by decide +kernel

end FF
