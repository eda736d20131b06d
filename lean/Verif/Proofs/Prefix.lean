import Verif.Proofs.TreeFacts

/-!
# Two runs that differ in a limit: the leaf limit and the number of trees
-/

namespace FF

set_option linter.unusedSectionVars false

open Spec

variable {K : Type} [Field K] [LinearOrder K] [IsStrictOrderedRing K] [FloorRing K] [NpFun K] {G : Type}

/-! ### The leaf limit -/

/-- The same tree with another leaf limit. -/
def Tree.limited (m : Option Nat) (t : Tree K G) : Tree K G := { t with cfg := { t.cfg with maxLeafNodes := m } }

/-- The same scan with another leaf limit. -/
def Scan.limited (m : Option Nat) (s : Scan K G) : Scan K G := { s with t := s.t.limited m }

variable {R : Rng K G} {mem : Nat → Junk K}

theorem scanLeaf_limited (m : Option Nat) (pos id : Nat) (s : Scan K G) :
    scanLeaf R mem pos id (s.limited m) = (scanLeaf R mem pos id s).map (Option.map (Scan.limited m)) := by
  have e1 : ∀ nd : Node K, splittableConstraints (s.limited m).t.cfg nd = splittableConstraints s.t.cfg nd := fun _ => rfl
  have e2 : ∀ (g : G) (gl : Glob G) (j : Junk K) (nd : Node K) (b : Option Int),
      calcBestSplit R g gl j (s.limited m).t.cfg nd b = calcBestSplit R g gl j s.t.cfg nd b := fun _ _ _ _ _ => rfl
  have e3 : (s.limited m).t.nodes = s.t.nodes := rfl
  unfold scanLeaf
  rw [e3]
  cases s.t.nodes[id]? with
  | none => rfl
  | some leaf =>
    simp only [e1, e2]
    cases splittableConstraints s.t.cfg leaf with
    | error e => rfl
    | ok b =>
      cases b with
      | false => rfl
      | true =>
        have e4 : (s.limited m).t.remaining = s.t.remaining := rfl
        simp only [e4]
        cases noBudget s.t.remaining with
        | true => rfl
        | false =>
          simp only [Bool.false_eq_true, if_false]
          have e5 : (s.limited m).t.rng = s.t.rng := rfl
          have e6 : (s.limited m).glob = s.glob := rfl
          rw [e5, e6]
          cases calcBestSplit R s.t.rng s.glob (mem id) s.t.cfg leaf s.t.remaining with
          | error e => rfl
          | ok p => rfl

theorem scanLeaves_limited (m : Option Nat) (ids : List Nat) : ∀ (pos : Nat) (s : Scan K G),
    scanLeaves R mem pos ids (s.limited m) = (scanLeaves R mem pos ids s).map (Scan.limited m) := by
  induction ids with
  | nil => intro pos s; rfl
  | cons id ids ih =>
    intro pos s
    unfold scanLeaves
    rw [scanLeaf_limited]
    cases scanLeaf R mem pos id s with
    | error e => rfl
    | ok o =>
      cases o with
      | none => rfl
      | some s' => exact ih (pos + 1) s'

theorem splitNode_limited (m : Option Nat) (glob : Glob G) (j : Junk K) (t : Tree K G) (id : Nat) :
    splitNode R glob j (t.limited m) id = (splitNode R glob j t id).map (fun p => (p.1.limited m, p.2)) := by
  have core : ∀ (t : Tree K G) (nd : Node K), splitNodeCore R (t.limited m) id nd = (splitNodeCore R t id nd).map (Tree.limited m) := by
    intro t nd
    have e1 : ∀ (g : G) (nd : Node K) (n : Nat) (l : List Nat), childNode R g (t.limited m) nd n l = childNode R g t nd n l :=
      fun _ _ _ _ => rfl
    unfold splitNodeCore
    cases nd.splitReduction with
    | none => rfl
    | some red =>
      simp only []
      cases red.lt (.fin 0) with
      | false => rfl
      | true =>
        simp only [Bool.not_true, Bool.false_eq_true, if_false]
        cases nd.data with
        | none => rfl
        | some data =>
          cases nd.labels with
          | none => rfl
          | some labels =>
            simp only []
            cases colE data nd.prevSplitFeature with
            | error e => rfl
            | ok col =>
              simp only [e1]
              split_ifs
              · rfl
              · have e2 : (t.limited m).rng = t.rng := rfl
                rw [e2]
                cases childNode R t.rng t nd labels.length (splitIdcs nd.idcs col nd.splitValue).1 with
                | error e => rfl
                | ok p =>
                  simp only []
                  cases childNode R p.2 t nd labels.length (splitIdcs nd.idcs col nd.splitValue).2 with
                  | error e => rfl
                  | ok q => rfl
  have e2 : ∀ (g : G) (gl : Glob G) (j : Junk K) (nd : Node K) (b : Option Int),
      calcBestSplit R g gl j (t.limited m).cfg nd b = calcBestSplit R g gl j t.cfg nd b := fun _ _ _ _ _ => rfl
  unfold splitNode
  have e3 : (t.limited m).nodes = t.nodes := rfl
  have e4 : (t.limited m).rng = t.rng := rfl
  rw [e3, e4]
  cases t.nodes[id]? with
  | none => rfl
  | some node =>
    simp only [e2]
    cases node.alreadySplit with
    | true => rfl
    | false =>
      simp only [Bool.false_eq_true, if_false]
      cases (if node.splitFeature = none then calcBestSplit R t.rng glob j t.cfg node none else .ok (node, t.rng, glob)) with
      | error e => rfl
      | ok p =>
        obtain ⟨node1, g, glob'⟩ := p
        simp only []
        have e5 : ({ t.limited m with nodes := t.nodes.set id node1, rng := g } : Tree K G) =
            Tree.limited m { t with nodes := t.nodes.set id node1, rng := g } := rfl
        rw [e5, core]
        cases splitNodeCore R { t with nodes := t.nodes.set id node1, rng := g } id node1 with
        | error e => rfl
        | ok t' => rfl

theorem splitBest_limited (m : Option Nat) (s : Scan K G) :
    splitBest R mem (s.limited m) = (splitBest R mem s).map (fun p => (p.1, p.2.1.limited m, p.2.2)) := by
  unfold splitBest
  have e1 : (s.limited m).best = s.best := rfl
  have e2 : (s.limited m).t.cfg.minImpDec = s.t.cfg.minImpDec := rfl
  rw [e1, e2]
  cases s.best with
  | none => rfl
  | some b =>
    obtain ⟨pos, id, red⟩ := b
    simp only []
    cases red.lt (.fin s.t.cfg.minImpDec) with
    | false => rfl
    | true =>
      simp only [if_true]
      unfold performSplit
      have e3 : splitNode R (s.limited m).glob (mem id) (s.limited m).t id = (splitNode R s.glob (mem id) s.t id).map (fun p => (p.1.limited m, p.2)) :=
        splitNode_limited m _ _ _ _
      rw [e3]
      cases splitNode R s.glob (mem id) s.t id with
      | error e => rfl
      | ok p => rfl

theorem fitStep_limited (m : Option Nat) (t : Tree K G) (glob : Glob G) (h : leafLimit t.cfg.maxLeafNodes t.leaves.length = .ok false)
    (h' : leafLimit m t.leaves.length = .ok false) :
    fitStep R mem (t.limited m) glob = (fitStep R mem t glob).map (fun p => (p.1, p.2.1.limited m, p.2.2)) := by
  unfold fitStep
  have e1 : leafLimit (t.limited m).cfg.maxLeafNodes (t.limited m).leaves.length = .ok false := h'
  have e2 : scanLeaves R mem 0 (t.limited m).leaves { t := t.limited m, glob := glob, best := none } =
    (scanLeaves R mem 0 t.leaves { t := t, glob := glob, best := none }).map (Scan.limited m) := scanLeaves_limited m t.leaves 0 { t := t, glob := glob, best := none }
  rw [e1, h, e2]
  cases scanLeaves R mem 0 t.leaves { t := t, glob := glob, best := none } with
  | error e => rfl
  | ok s =>
    simp only [Except.map]
    rw [splitBest_limited]
    cases splitBest R mem s with
    | error e => rfl
    | ok p =>
      obtain ⟨b, t', glob'⟩ := p
      simp only [Except.map]
      have e3 : getDepth (t'.limited m) = getDepth t' := rfl
      rw [e3]
      cases getDepth t' with
      | error e => rfl
      | ok d => rfl

/-- The leaf limit `m'` is at least as weak as `m`. -/
def LimitLe (m m' : Option Nat) : Prop := ∀ b, m' = some b → ∃ a, m = some a ∧ a ≤ b

theorem leafLimit_false_iff {m : Option Nat} {n : Nat} : leafLimit m n = .ok false ↔ ∀ a, m = some a → n < a := by
  cases m with
  | none => simp [leafLimit]
  | some a =>
    simp only [leafLimit, Option.some.injEq, forall_eq']
    split_ifs with h1 h2
    · simp; omega
    · simp; omega
    · simp; omega

theorem leafLimit_true_iff {m : Option Nat} {n : Nat} : leafLimit m n = .ok true ↔ m = some n := by
  cases m with
  | none => simp [leafLimit]
  | some a =>
    simp only [leafLimit, Option.some.injEq]
    split_ifs with h1 h2
    · simp [h1]
    · simp; omega
    · simp; omega

/-- Two runs of the loop from the same tree with different leaf limits: the run with the stronger limit stops in a state through which the
other one passes, and unless it stops because of the limit, both end the same way. -/
theorem fitLoop_limited {m m' : Option Nat} (hm : LimitLe m m') : ∀ (n n' : Nat) {t t1 t1' : Tree K G} {gl gl1 gl1' : Glob G},
    fitLoop R mem n (t.limited m) gl = .ok (t1, gl1) → fitLoop R mem n' (t.limited m') gl = .ok (t1', gl1') →
    (∃ u : Tree K G, t1 = u.limited m ∧ t1' = u.limited m' ∧ gl1' = gl1) ∨
    (m = some t1.leaves.length ∧ ∃ u : Tree K G, t1 = u.limited m ∧ FitHead R mem (t.limited m') gl (u.limited m') gl1 ∧
      ∃ k, fitLoop R mem k (u.limited m') gl1 = .ok (t1', gl1'))
  | 0, _, _, _, _, _, _, _, h, _ => by cases h
  | _ + 1, 0, _, _, _, _, _, _, _, h' => by cases h'
  | n + 1, n' + 1, t, t1, t1', gl, gl1, gl1', h, h' => by
    have hl : ∀ m : Option Nat, (t.limited m).cfg.maxLeafNodes = m := fun _ => rfl
    have hh := h
    have hh' := h'
    unfold fitLoop at h h'
    cases hlim : leafLimit m t.leaves.length with
    | error e =>
      have : fitStep R mem (t.limited m) gl = .error e := by
        unfold fitStep
        have : leafLimit (t.limited m).cfg.maxLeafNodes (t.limited m).leaves.length = .error e := hlim
        rw [this]
      rw [this] at h
      cases h
    | ok b =>
      cases b with
      | true =>
        right
        have : fitStep R mem (t.limited m) gl = .ok (false, t.limited m, gl) := by
          unfold fitStep
          have : leafLimit (t.limited m).cfg.maxLeafNodes (t.limited m).leaves.length = .ok true := hlim
          rw [this]
        rw [this] at h
        simp only [Except.ok.injEq, Prod.mk.injEq] at h
        obtain ⟨rfl, rfl⟩ := h
        exact ⟨leafLimit_true_iff.1 hlim, t, rfl, .init, n' + 1, hh'⟩
      | false =>
        have hlim' : leafLimit m' t.leaves.length = .ok false := by
          rw [leafLimit_false_iff] at hlim ⊢
          intro b hb
          obtain ⟨a, ha, hab⟩ := hm b hb
          exact lt_of_lt_of_le (hlim a ha) hab
        have e := fitStep_limited (R := R) (mem := mem) m' (t.limited m) gl hlim hlim'
        have e' : (t.limited m).limited m' = t.limited m' := rfl
        rw [e'] at e
        rw [e] at h'
        cases hs : fitStep R mem (t.limited m) gl with
        | error er => rw [hs] at h; cases h
        | ok p =>
          obtain ⟨b, t2, gl2⟩ := p
          rw [hs] at h h' e
          have hcfg : t2 = t2.limited m := by
            have := fitStep_limited (R := R) (mem := mem) m (t.limited m) gl hlim hlim
            have e'' : (t.limited m).limited m = t.limited m := rfl
            rw [e'', hs] at this
            simp only [Except.map, Except.ok.injEq, Prod.mk.injEq] at this
            exact this.2.1
          cases b with
          | false =>
            simp only [Except.map, Except.ok.injEq, Prod.mk.injEq] at h h'
            obtain ⟨rfl, rfl⟩ := h
            obtain ⟨rfl, rfl⟩ := h'
            exact Or.inl ⟨t2, hcfg, rfl, rfl⟩
          | true =>
            simp only [Except.map] at h h' e
            rw [hcfg] at h
            rcases fitLoop_limited hm n n' h h' with hx | ⟨a1, u, a2, a3, a4⟩
            · exact Or.inl hx
            · refine Or.inr ⟨a1, u, a2, ?_, a4⟩
              have key : ∀ {x : Tree K G} {gx : Glob G}, FitHead R mem (t2.limited m') gl2 x gx → FitHead R mem (t.limited m') gl x gx := by
                intro x gx hx
                induction hx with
                | init => exact .step .init e
                | step _ hs ih => exact .step ih hs
              exact key a3

end FF
