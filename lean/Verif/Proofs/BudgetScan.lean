import Verif.Proofs.Unspent
import Verif.Proofs.TreePass
import Verif.Proofs.TreeSum

/-!
# The exact solver under two budgets: what the smaller one misses
-/

namespace FF

set_option linter.unusedSectionVars false

open Spec

variable {K : Type} [Field K] [LinearOrder K] [IsStrictOrderedRing K] [FloorRing K] [NpFun K] {G : Type}

/-- The sum of the reductions of all splits made so far. -/
def redSum (t : Tree K G) : K := (t.nodes.map splitRed).sum

section
variable {R : Rng K G} {mem : Nat → Junk K} {B1 B2 : Option Int}

/-- The exact search does not depend on the budget. -/
theorem calcBestSplit_exact {g : G} {glob : Glob G} {junk : Junk K} {cfg : TreeCfg K} (hs : cfg.solver = .exact) (nd : Node K) (b1 b2 : Option Int) :
    calcBestSplit R g glob junk cfg nd b1 = calcBestSplit R g glob junk cfg nd b2 := by
  unfold calcBestSplit nodeSolve
  rw [hs]

theorem scanLeaf_same {pos id : Nat} {s s1 : Scan K G} (h : scanLeaf R mem pos id s = .ok (some s1)) :
    s1.t.cfg = s.t.cfg ∧ s1.t.numSplits = s.t.numSplits := by
  unfold scanLeaf at h
  split at h
  · cases h
  · split at h
    · cases h
    · cases h; exact ⟨rfl, rfl⟩
    · cases hb : noBudget s.t.remaining with
      | true => rw [hb, if_pos rfl] at h; cases h
      | false =>
        rw [hb, if_neg (by simp)] at h
        split at h
        · cases h
        · cases h; exact ⟨rfl, rfl⟩

theorem scanLeaves_same (ids : List Nat) : ∀ {pos : Nat} {s s1 : Scan K G}, scanLeaves R mem pos ids s = .ok s1 →
    s1.t.cfg = s.t.cfg ∧ s1.t.numSplits = s.t.numSplits := by
  induction ids with
  | nil => intro pos s s1 h; cases h; exact ⟨rfl, rfl⟩
  | cons id ids ih =>
    intro pos s s1 h
    unfold scanLeaves at h
    split at h
    · cases h
    · cases h; exact ⟨rfl, rfl⟩
    · rename_i s2 hs
      obtain ⟨a1, a2⟩ := scanLeaf_same hs
      obtain ⟨b1, b2⟩ := ih h
      exact ⟨b1.trans a1, b2.trans a2⟩

/-- The best leaf only changes for a better one. -/
theorem scanLeaf_best {pos id : Nat} {s s1 : Scan K G} (h : scanLeaf R mem pos id s = .ok (some s1)) :
    s1.best = s.best ∨ s1.bestRed.lt s.bestRed = true := by
  unfold scanLeaf at h
  split at h
  · cases h
  · split at h
    · cases h
    · cases h; exact .inl rfl
    · cases hb : noBudget s.t.remaining with
      | true => rw [hb, if_pos rfl] at h; cases h
      | false =>
        rw [hb, if_neg (by simp)] at h
        split at h
        · cases h
        · rename_i leaf1 g gl hc
          simp only [Except.ok.injEq, Option.some.injEq] at h
          cases hr : leaf1.splitReduction with
          | none =>
            left
            rw [← h]
            dsimp only
            rw [hr]
          | some red =>
            cases hlt : red.lt s.bestRed && (match leaf1.isSplittable with
              | some b => b
              | none => splittableImpurity s.t.cfg s.t.nData leaf1) with
            | false =>
              left
              rw [← h]
              dsimp only
              rw [hr]
              dsimp only
              exact if_neg (fun e => Bool.noConfusion (hlt.symm.trans e))
            | true =>
              right
              have e : s1.best = some (pos, id, red) := by
                rw [← h]
                dsimp only
                rw [hr]
                dsimp only
                exact if_pos hlt
              have e1 : s1.bestRed = red := by unfold Scan.bestRed; rw [e]
              rw [Bool.and_eq_true] at hlt
              rw [e1]
              exact hlt.1

theorem scanLeaves_best (ids : List Nat) : ∀ {pos : Nat} {s s1 : Scan K G}, scanLeaves R mem pos ids s = .ok s1 →
    s1.best = s.best ∨ s1.bestRed.lt s.bestRed = true := by
  induction ids with
  | nil => intro pos s s1 h; cases h; exact .inl rfl
  | cons id ids ih =>
    intro pos s s1 h
    unfold scanLeaves at h
    split at h
    · cases h
    · cases h; exact .inl rfl
    · rename_i s2 hs
      rcases scanLeaf_best hs with a | a
      · have e : s2.bestRed = s.bestRed := by unfold Scan.bestRed; rw [a]
        rw [← a, ← e]
        exact ih h
      · rcases ih h with b | b
        · have e : s1.bestRed = s2.bestRed := by unfold Scan.bestRed; rw [b]
          rw [e]
          exact .inr a
        · exact .inr (XF.lt_trans b a)

/-- A scan with a spent budget finds nothing. -/
theorem scanLeaves_spent (ids : List Nat) : ∀ {pos : Nat} {s s1 : Scan K G}, noBudget s.t.remaining = true →
    scanLeaves R mem pos ids s = .ok s1 → s1.best = s.best := by
  induction ids with
  | nil => intro pos s s1 _ h; cases h; rfl
  | cons id ids ih =>
    intro pos s s1 hn h
    unfold scanLeaves at h
    split at h
    · cases h
    · cases h; rfl
    · rename_i s2 hs
      have e : s2.t.remaining = s.t.remaining ∧ s2.best = s.best := by
        unfold scanLeaf at hs
        split at hs
        · cases hs
        · split at hs
          · cases hs
          · cases hs; exact ⟨rfl, rfl⟩
          · rw [hn, if_pos rfl] at hs; cases hs
      exact (ih (by rw [e.1]; exact hn) h).trans e.2

/-- The exact solver under two budgets as long as the first is not spent. -/
theorem scanLeaf_two (hle : ∀ q, Within B1 q → Within B2 q) {pos id : Nat} {s s1 : Scan K G} (hs : s.t.cfg.solver = .exact)
    (h : scanLeaf R mem pos id (s.under B1) = .ok (some s1)) :
    scanLeaf R mem pos id (s.under B2) = .ok (some (s1.under B2)) ∧ s1 = s1.under B1 := by
  have e : ∀ B : Option Int, (s.under B).t.nodes = s.t.nodes := fun _ => rfl
  have e1 : ∀ B : Option Int, (s.under B).t.cfg = s.t.cfg := fun _ => rfl
  have e2 : ∀ B : Option Int, (s.under B).t.rng = s.t.rng := fun _ => rfl
  have e3 : ∀ B : Option Int, (s.under B).glob = s.glob := fun _ => rfl
  have e4 : ∀ B : Option Int, (s.under B).t.remaining = leftOf B s.t.numQueries := fun _ => rfl
  unfold scanLeaf at h ⊢
  rw [e] at h ⊢
  cases hn : s.t.nodes[id]? with
  | none => rw [hn] at h; cases h
  | some leaf =>
    rw [hn] at h
    simp only [e1] at h ⊢
    cases hc : splittableConstraints s.t.cfg leaf with
    | error e => rw [hc] at h; cases h
    | ok b =>
      rw [hc] at h
      cases b with
      | false =>
        simp only [Except.ok.injEq, Option.some.injEq] at h ⊢
        rw [← h]
        exact ⟨rfl, rfl⟩
      | true =>
        simp only [e2, e3, e4] at h ⊢
        cases n1 : noBudget (leftOf B1 s.t.numQueries) with
        | true => rw [n1, if_pos rfl] at h; cases h
        | false =>
          have n2 := noBudget_leftOf.2 (hle _ (noBudget_leftOf.1 n1))
          rw [n1] at h
          rw [n2]
          simp only [Bool.false_eq_true, if_false] at h ⊢
          rw [calcBestSplit_exact hs leaf (leftOf B2 s.t.numQueries) (leftOf B1 s.t.numQueries)]
          split at h
          · cases h
          · rename_i leaf1 g gl hc
            simp only [Except.ok.injEq, Option.some.injEq] at h
            simp only [Except.ok.injEq, Option.some.injEq]
            rw [← h]
            unfold Scan.under Tree.under
            simp only [Scan.mk.injEq, Tree.mk.injEq, true_and, and_true]
            exact ⟨⟨leftOf_leftOf _ _ _, rfl⟩, leftOf_leftOf _ _ _⟩

/-- Where the scan with the smaller budget stops, the one with the larger budget goes on. -/
theorem scanLeaves_two (hle : ∀ q, Within B1 q → Within B2 q) (ids : List Nat) : ∀ {pos : Nat} {s s1 : Scan K G}, s.t.cfg.solver = .exact →
    scanLeaves R mem pos ids (s.under B1) = .ok s1 →
    ∃ (s' : Scan K G) (k : Nat), s1 = s'.under B1 ∧
      scanLeaves R mem pos ids (s.under B2) = scanLeaves R mem (pos + k) (ids.drop k) (s'.under B2) ∧
      (ids.drop k = [] ∨ ¬ Within B1 s'.t.numQueries) := by
  induction ids with
  | nil => intro pos s s1 _ h; cases h; exact ⟨s, 0, rfl, rfl, .inl rfl⟩
  | cons id ids ih =>
    intro pos s s1 hs h
    cases hl : scanLeaf R mem pos id (s.under B1) with
    | error e => unfold scanLeaves at h; rw [hl] at h; cases h
    | ok o =>
      cases o with
      | none =>
        have hn : ¬ Within B1 s.t.numQueries := by
          intro hw
          have hw := noBudget_leftOf.2 hw
          unfold scanLeaf at hl
          split at hl
          · cases hl
          · split at hl
            · cases hl
            · cases hl
            · have : noBudget (s.under B1).t.remaining = false := hw
              rw [this, if_neg (by simp)] at hl
              split at hl <;> cases hl
        unfold scanLeaves at h
        rw [hl] at h
        cases h
        exact ⟨s, 0, rfl, rfl, .inr hn⟩
      | some s2 =>
        obtain ⟨a1, a2⟩ := scanLeaf_two hle hs hl
        have hcfg : s2.t.cfg = s.t.cfg := (scanLeaf_same hl).1
        unfold scanLeaves at h
        rw [hl] at h
        dsimp only at h
        rw [a2] at h
        obtain ⟨s', k, b1, b2, b3⟩ := ih (by rw [hcfg]; exact hs) h
        refine ⟨s', k + 1, b1, ?_, by rw [List.drop_succ_cons]; exact b3⟩
        rw [List.drop_succ_cons]
        conv_lhs => unfold scanLeaves
        rw [a1]
        dsimp only
        rw [b2, Nat.add_assoc, Nat.add_comm 1 k]

end

section
variable {R : Rng K G} {mem : Nat → Junk K} {A : TreeArgs K} {t t' : Tree K G} {dd : DiscDict K} {t0 : Tree K G}

/-- A step that does not split changes no reduction, a split only lowers the sum. -/
theorem GrowFacts.redSum_step (h : GrowFacts R mem A dd t0 t) (hA : ArgsOK A) (hs : A.cfg.solver = .exact) (hst : TStep R mem t t') :
    (t'.numSplits = t.numSplits ∧ redSum t' = redSum t) ∨
      ∃ (pos id : Nat) (nd : Node K) (x : K), t'.numSplits = t.numSplits + 1 ∧ t.leaves[pos]? = some id ∧ NodeAt t id nd ∧
        nd.splitReduction = some (.fin x) ∧ x < 0 ∧ redSum t' = redSum t + x := by
  have h' := h.next (.one hst)
  unfold redSum
  cases hst with
  | mark hl hn hc =>
    rename_i id leaf
    left
    refine ⟨rfl, ?_⟩
    dsimp only
    rw [sum_map_set_field _ splitRed _ _ _ hn]
    have : splitRed { leaf with isSplittable := some false } = splitRed leaf := rfl
    rw [this]
    ring
  | solve hl hn hc hb hcomp hsp hnb hd hls hsv =>
    rename_i id leaf glob glob' nb data labels r q g'
    left
    refine ⟨rfl, ?_⟩
    dsimp only
    rw [sum_map_set_field _ splitRed _ _ _ hn]
    have hleft : leaf.left = none := by
      obtain ⟨_, hl0⟩ := (h.shape.leaves id).1 hl
      obtain rfl := Option.some.inj (hn.symm.trans hl0.1)
      exact hl0.2
    have a1 : splitRed leaf = 0 := by unfold splitRed; rw [if_pos hleft]
    have a2 : splitRed { nodeRecord { leaf with numBins := nb } r q with
      isSplittable := some (splittableImpurity t.cfg t.nData (nodeRecord { leaf with numBins := nb } r q)) } = 0 := by
      unfold splitRed
      rw [if_pos]
      cases r <;> exact hleft
    rw [a1, a2]
    ring
  | depth hd => exact .inl ⟨rfl, rfl⟩
  | split hl hn hc hcomp hsp hred hneg himp hd hls hcol hne1 hne2 hcl hcr =>
    rename_i pos id leaf l r red data labels col g1 g2
    right
    have hlt := (List.getElem?_eq_some_iff.1 hn).1
    have fl := Node_init_fresh hcl
    have fr := Node_init_fresh hcr
    have hleft : leaf.left = none := by
      obtain ⟨_, hl0⟩ := (h.shape.leaves id).1 (List.mem_of_getElem? hl)
      obtain rfl := Option.some.inj (hn.symm.trans hl0.1)
      exact hl0.2
    have gid : ∀ p, (t.nodes.set id p ++ [l, r])[id]? = some p := by
      intro p
      rw [List.getElem?_append_left (by rw [List.length_set]; exact hlt)]
      exact getElem?_set_eq hn
    obtain ⟨k1, k2, _⟩ := h'.split_sum hA hs (gid _) rfl rfl
    refine ⟨pos, id, leaf, _, rfl, hl, hn, k1, k2, ?_⟩
    simp only [List.map_append, List.sum_append, List.map_cons, List.map_nil, List.sum_cons, List.sum_nil, add_zero]
    rw [sum_map_set_field _ splitRed _ _ _ hn]
    have a0 : splitRed leaf = 0 := by unfold splitRed; rw [if_pos hleft]
    have a1 : splitRed l = 0 := by unfold splitRed; rw [if_pos fl.left_eq]
    have a2 : splitRed r = 0 := by unfold splitRed; rw [if_pos fr.left_eq]
    rw [a0, a1, a2]
    ring

theorem GrowFacts.redSum_steps (h : GrowFacts R mem A dd t0 t) (hA : ArgsOK A) (hs : A.cfg.solver = .exact) (hst : TSteps R mem t t') :
    t.numSplits ≤ t'.numSplits ∧ redSum t' ≤ redSum t ∧ (t'.numSplits = t.numSplits → redSum t' = redSum t) := by
  induction hst with
  | refl => exact ⟨le_refl _, le_refl _, fun _ => rfl⟩
  | step hst hs1 ih =>
    obtain ⟨a1, a2, a3⟩ := ih
    rcases (h.next hst).redSum_step hA hs hs1 with ⟨b1, b2⟩ | ⟨_, _, _, x, b1, _, _, _, b2, b3⟩
    · rw [b1, b2]
      exact ⟨a1, a2, a3⟩
    · exact ⟨by omega, by rw [b3]; linarith, fun e => by omega⟩

/-- The scan changes no reduction. -/
theorem GrowFacts.scan (h : GrowFacts R mem A dd t0 t) (hA : ArgsOK A) (hs : A.cfg.solver = .exact) {glob : Glob G} {s : Scan K G}
    (hscan : scanLeaves R mem 0 t.leaves { t := t, glob := glob, best := none } = .ok s) :
    GrowFacts R mem A dd t0 s.t ∧ ScanOK t s ∧ redSum s.t = redSum t := by
  obtain ⟨h1, h2⟩ := scanLeaves_sim (t0 := t) ⟨h.sim, rfl, rfl, fun b hb => by cases hb⟩
      (fun i hi => by rw [Nat.zero_add]; exact List.getElem?_eq_getElem hi) hscan
  exact ⟨h.next h1, h2, (h.redSum_steps hA hs h1).2.2 (scanLeaves_same _ hscan).2⟩

theorem GrowFacts.pass_false (h : GrowFacts R mem A dd t0 t) (hA : ArgsOK A) (hs : A.cfg.solver = .exact) {glob glob' : Glob G}
    (hst : fitStep R mem t glob = .ok (false, t', glob')) : redSum t' = redSum t := by
  rcases fitStep_false hst with ⟨_, rfl, _⟩ | ⟨s, d, _, h1, _, _, rfl, _⟩
  · rfl
  · exact (h.scan hA hs h1).2.2

/-- A pass that splits lowers the sum by the reduction of the best leaf. -/
theorem GrowFacts.pass_true (h : GrowFacts R mem A dd t0 t) (hA : ArgsOK A) (hs : A.cfg.solver = .exact) {glob glob' : Glob G}
    (hst : fitStep R mem t glob = .ok (true, t', glob')) {s : Scan K G}
    (hscan : scanLeaves R mem 0 t.leaves { t := t, glob := glob, best := none } = .ok s) :
    ∃ x, s.bestRed = .fin x ∧ redSum t' = redSum t + x := by
  obtain ⟨s', pos, id, red, t1, d, _, h1, h2, h3, h4, h5, rfl⟩ := fitStep_true hst
  rw [hscan] at h1
  obtain rfl := Except.ok.inj h1
  obtain ⟨a1, a2, a3⟩ := h.scan hA hs hscan
  have hb := a2.best _ h2
  obtain ⟨nd, data, labels, col, l, r, g1, g2, hpos, hnd, hc, hcomp, hsp, hred, hneg, hd, hl, hcol, hne1, hne2, hcl, hcr, _, e⟩ :=
    performSplit_parts a2.sim hb h4
  have hstep := performSplit_sim a2.sim hb h3 h4
  have hbr : s.bestRed = red := by unfold Scan.bestRed; rw [h2]
  have hns : t1.numSplits = s.t.numSplits + 1 := by rw [e]
  obtain ⟨f, _, _, hx, _⟩ := a1.exact_red hA hs hnd hcomp hred
  refine ⟨_, hbr.trans hx, ?_⟩
  show redSum t1 = _
  have a1' := a1.next (.one hstep)
  have hlt := (List.getElem?_eq_some_iff.1 hnd).1
  have fl := Node_init_fresh hcl
  have fr := Node_init_fresh hcr
  have hleft : nd.left = none := by
    obtain ⟨_, hl0⟩ := (a1.shape.leaves id).1 (List.mem_of_getElem? hpos)
    obtain rfl := Option.some.inj (hnd.symm.trans hl0.1)
    exact hl0.2
  rw [← a3]
  unfold redSum
  rw [e]
  simp only [List.map_append, List.sum_append, List.map_cons, List.map_nil, List.sum_cons, List.sum_nil, add_zero]
  rw [sum_map_set_field _ splitRed _ _ _ hnd]
  have a0 : splitRed nd = 0 := by unfold splitRed; rw [if_pos hleft]
  have a1 : splitRed l = 0 := by unfold splitRed; rw [if_pos fl.left_eq]
  have a2 : splitRed r = 0 := by unfold splitRed; rw [if_pos fr.left_eq]
  have a4 : ∀ nd' : Node K, nd'.left = some s.t.nodes.length → nd'.splitReduction = nd.splitReduction →
      splitRed nd' = change (critImp A.cfg.criterion) (rowSamples A nd.idcs f) nd.splitValue *
        ((nd.idcs.length : K) / (A.rows.length : K)) := by
    intro nd' e1 e2
    unfold splitRed
    rw [if_neg (by rw [e1]; simp), e2, hred, hx]
  rw [a0, a1, a2, a4]
  · ring
  · rfl
  · rfl

/-- A pass with a spent budget is the last one. -/
theorem fitStep_spent {glob glob' : Glob G} {b : Bool} (hn : noBudget t.remaining = true)
    (hst : fitStep R mem t glob = .ok (b, t', glob')) : b = false := by
  cases b with
  | false => rfl
  | true =>
    obtain ⟨s, pos, id, red, t1, d, _, h1, h2, _⟩ := fitStep_true hst
    rw [scanLeaves_spent _ (by exact hn) h1] at h2
    cases h2

theorem fitLoop_tsteps {n : Nat} {glob glob' : Glob G} (h : SimInv t) (hf : fitLoop R mem n t glob = .ok (t', glob')) : TSteps R mem t t' := by
  obtain ⟨t1, glob1, h1, h2⟩ := fitLoop_head hf
  have := h1.sim h
  exact this.trans (fitStep_sim (h.steps this) h2)

end

end FF
