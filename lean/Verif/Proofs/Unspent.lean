import Verif.Proofs.TreeFacts
import Verif.Proofs.Mab

/-!
# Two runs that differ in the budget, when neither budget is used up
-/

namespace FF

set_option linter.unusedSectionVars false

open Spec

variable {K : Type} [Field K] [LinearOrder K] [IsStrictOrderedRing K] [FloorRing K] [NpFun K] {G : Type}

/-- After `q` queries something of the budget is left (always, without a budget). -/
def Within (B : Option Int) (q : Nat) : Prop := ∀ b, B = some b → (q : Int) < b

theorem Within.mono {B : Option Int} {q q' : Nat} (h : Within B q') (hq : q ≤ q') : Within B q := fun b hb => by
  have := h b hb
  omega

theorem overBudget_false_iff {B : Option Int} {q : Nat} : overBudget B q = false ↔ Within B q := by
  cases B with
  | none => simp [overBudget, Within]
  | some b => simp [overBudget, Within]

/-- What is left of the budget. -/
def leftOf (B : Option Int) (q : Nat) : Option Int := B.map (fun b => b - (q : Int))

theorem noBudget_leftOf {B : Option Int} {q : Nat} : noBudget (leftOf B q) = false ↔ Within B q := by
  cases B with
  | none => simp [noBudget, leftOf, Within]
  | some b => simp [noBudget, leftOf, Within]

theorem within_leftOf {B : Option Int} {q r : Nat} : Within (leftOf B q) r ↔ Within B (q + r) := by
  cases B with
  | none => simp [leftOf, Within]
  | some b => simp only [leftOf, Within, Option.map_some, Option.some.injEq, forall_eq']; push_cast; constructor <;> intro h <;> omega

theorem leftOf_leftOf (B : Option Int) (q r : Nat) : leftOf (leftOf B q) r = leftOf B (q + r) := by
  cases B with
  | none => rfl
  | some b => simp only [leftOf, Option.map_some, Option.some.injEq]; push_cast; omega

/-! ### The solver -/

section
variable {R : Rng K G} {F B : Nat} {data : List (List K)} {labels : List K} {m : Criterion} {epsilon : K} {withRep : Bool} {batch : Nat}
  {b1 b2 : Option Int}

theorem mabExactPart_unspent {s : MabState K G} {r : Loop (MabState K G)}
    (h : mabExactPart R F B data labels m withRep b1 batch s = .ok r) (h1 : Within b1 r.state.total) (h2 : Within b2 r.state.total) :
    mabExactPart R F B data labels m withRep b2 batch s = .ok r ∧ s.total ≤ r.state.total := by
  unfold mabExactPart at h ⊢
  cases withRep with
  | false =>
    simp only [Bool.false_eq_true, if_false] at h ⊢
    cases h; exact ⟨rfl, le_refl _⟩
  | true =>
    simp only [if_true] at h ⊢
    by_cases hea : 0 < (exactArms F B data.length batch s).length
    swap
    · rw [if_neg hea] at h ⊢
      cases h; exact ⟨rfl, le_refl _⟩
    rw [if_pos hea] at h ⊢
    cases hs : sampleTargets R s.g data labels (exactArms F B data.length batch s) (emptyHistograms s.hists (exactArms F B data.length batch s))
        data.length m none with
    | error e => rw [hs] at h; cases h
    | ok out =>
      rw [hs] at h
      simp only [] at h ⊢
      cases ha : assignMat F B s.est (exactArms F B data.length batch s) out.acc.reds with
      | error e => rw [ha] at h; cases h
      | ok est =>
        rw [ha] at h
        simp only [] at h ⊢
        split at h
        · cases h
        · split at h
          · cases h
          · cases ho : overBudget b1 (s.total + out.acc.nq) with
            | true =>
              exfalso
              rw [ho, if_pos rfl] at h
              cases h
              exact absurd (ho.symm.trans (overBudget_false_iff.2 h1)) (by simp)
            | false =>
              rw [ho, if_neg (by simp)] at h
              have ht : r.state.total = s.total + out.acc.nq := by
                split_ifs at h <;> cases h <;> rfl
              have ho2 : overBudget b2 (s.total + out.acc.nq) = false := by rw [overBudget_false_iff, ← ht]; exact h2
              rw [ho2, if_neg (by simp)]
              exact ⟨h, by rw [ht]; exact Nat.le_add_right _ _⟩

theorem mabSamplePart_unspent {s : MabState K G} {r : Loop (MabState K G)}
    (h : mabSamplePart R F B data labels m epsilon b1 batch s = .ok r) (h1 : Within b1 r.state.total) (h2 : Within b2 r.state.total) :
    mabSamplePart R F B data labels m epsilon b2 batch s = .ok r ∧ s.total ≤ r.state.total := by
  unfold mabSamplePart at h ⊢
  by_cases hc : s.cands.length ≤ 1
  · rw [if_pos hc] at h ⊢
    cases h; exact ⟨rfl, le_refl _⟩
  rw [if_neg hc] at h ⊢
  by_cases hp : s.pop = some []
  · rw [if_pos hp] at h ⊢
    cases h; exact ⟨rfl, le_refl _⟩
  rw [if_neg hp] at h ⊢
  cases hs : sampleTargets R s.g data labels s.cands s.hists batch m s.pop with
  | error e => rw [hs] at h; cases h
  | ok out =>
    rw [hs] at h
    simp only [] at h ⊢
    cases ha : assignMat F B s.est s.cands out.acc.reds with
    | error e => rw [ha] at h; cases h
    | ok est =>
      rw [ha] at h
      simp only [] at h ⊢
      cases hb : assignMat F B s.cbDelta s.cands out.acc.cbs with
      | error e => rw [hb] at h; cases h
      | ok cbd =>
        rw [hb] at h
        simp only [] at h ⊢
        cases ho : overBudget b1 (s.total + out.acc.nq) with
        | true =>
          exfalso
          rw [ho, if_pos rfl] at h
          cases h
          exact absurd (ho.symm.trans (overBudget_false_iff.2 h1)) (by simp)
        | false =>
          rw [ho, if_neg (by simp)] at h
          have ht : r.state.total = s.total + out.acc.nq := by
            split at h
            · cases h
            · split_ifs at h
              · cases h; rfl
              · split at h
                · cases h
                · split at h
                  · cases h
                  · cases h; rfl
          have ho2 : overBudget b2 (s.total + out.acc.nq) = false := by rw [overBudget_false_iff, ← ht]; exact h2
          rw [ho2, if_neg (by simp)]
          exact ⟨h, by rw [ht]; exact Nat.le_add_right _ _⟩

theorem mabExactPart_total {s : MabState K G} {r : Loop (MabState K G)}
    (h : mabExactPart R F B data labels m withRep b1 batch s = .ok r) : s.total ≤ r.state.total := by
  unfold mabExactPart at h
  dsimp only at h
  split_ifs at h
  · split at h
    · cases h
    · split at h
      · cases h
      · split at h
        · cases h
        · split at h
          · cases h
          · split_ifs at h <;> cases h <;> exact Nat.le_add_right _ _
  · cases h; exact le_refl _
  · cases h; exact le_refl _

theorem mabSamplePart_total {s : MabState K G} {r : Loop (MabState K G)}
    (h : mabSamplePart R F B data labels m epsilon b1 batch s = .ok r) : s.total ≤ r.state.total := by
  unfold mabSamplePart at h
  split_ifs at h
  · cases h; exact le_refl _
  · cases h; exact le_refl _
  · split at h
    · cases h
    · split at h
      · cases h
      · split at h
        · cases h
        · simp only [] at h
          split_ifs at h
          · cases h; exact Nat.le_add_right _ _
          · split at h
            · cases h
            · split_ifs at h
              · cases h; exact Nat.le_add_right _ _
              · split at h
                · cases h
                · split at h
                  · cases h
                  · cases h; exact Nat.le_add_right _ _

theorem mabStep_unspent {s : MabState K G} {r : Loop (MabState K G)}
    (h : mabStep R F B data labels m epsilon withRep b1 batch s = .ok r) (h1 : Within b1 r.state.total) (h2 : Within b2 r.state.total) :
    mabStep R F B data labels m epsilon withRep b2 batch s = .ok r := by
  unfold mabStep at h ⊢
  cases he : mabExactPart R F B data labels m withRep b1 batch s with
  | error e => rw [he] at h; cases h
  | ok q =>
    rw [he] at h
    cases q with
    | done s' =>
      cases h
      rw [(mabExactPart_unspent he h1 h2).1]
    | next s' =>
      have ht := mabSamplePart_total h
      rw [(mabExactPart_unspent (b2 := b2) he (h1.mono ht) (h2.mono ht)).1]
      exact (mabSamplePart_unspent h h1 h2).1

theorem mabStep_total {s : MabState K G} {r : Loop (MabState K G)}
    (h : mabStep R F B data labels m epsilon withRep b1 batch s = .ok r) : s.total ≤ r.state.total := by
  unfold mabStep at h
  cases he : mabExactPart R F B data labels m withRep b1 batch s with
  | error e => rw [he] at h; cases h
  | ok q =>
    rw [he] at h
    have := mabExactPart_total he
    cases q with
    | done s' => cases h; exact this
    | next s' => exact this.trans (mabSamplePart_total h)

theorem mabLoop_total : ∀ (n : Nat) {s s' : MabState K G}, mabLoop R F B data labels m epsilon withRep b1 batch n s = .ok s' → s.total ≤ s'.total
  | 0, s, s', h => by
    unfold mabLoop at h
    split_ifs at h
    cases h; exact le_refl _
  | n + 1, s, s', h => by
    unfold mabLoop at h
    split_ifs at h
    · cases hs : mabStep R F B data labels m epsilon withRep b1 batch s with
      | error e => rw [hs] at h; cases h
      | ok q =>
        rw [hs] at h
        have := mabStep_total hs
        cases q with
        | done s1 => cases h; exact this
        | next s1 => exact this.trans (mabLoop_total n h)
    · cases h; exact le_refl _

theorem mabLoop_unspent : ∀ (n : Nat) {s s' : MabState K G}, mabLoop R F B data labels m epsilon withRep b1 batch n s = .ok s' →
    Within b1 s'.total → Within b2 s'.total → mabLoop R F B data labels m epsilon withRep b2 batch n s = .ok s'
  | 0, s, s', h, _, _ => by
    unfold mabLoop at h ⊢
    exact h
  | n + 1, s, s', h, h1, h2 => by
    unfold mabLoop at h ⊢
    split_ifs at h ⊢
    · cases hs : mabStep R F B data labels m epsilon withRep b1 batch s with
      | error e => rw [hs] at h; cases h
      | ok q =>
        rw [hs] at h
        cases q with
        | done s1 =>
          cases h
          rw [mabStep_unspent hs h1 h2]
        | next s1 =>
          have ht := mabLoop_total n h
          rw [mabStep_unspent (b2 := b2) hs (h1.mono ht) (h2.mono ht)]
          exact mabLoop_unspent n h h1 h2
    · exact h

end

theorem mabFinish_queries {R : Rng K G} {F B : Nat} {glob : Glob G} {s : MabState K G} {out : MabOut K G}
    (h : mabFinish R F B glob s = .ok out) : out.total = s.total := by
  unfold mabFinish at h
  split at h
  · cases h
  · dsimp only at h
    split_ifs at h
    split at h
    · cases h
    · cases h; rfl

/-- MABSplit with two budgets that are both not used up gives the same result. -/
theorem solveMab_unspent {R : Rng K G} {g : G} {glob : Glob G} {junk : Junk K} {data : List (List K)} {labels : List K}
    {minmax : Option (List K × List K)} {d : DiscDict K} {binType : Option BinType} {numBins : Option Nat} {isCls : Bool} {m : Criterion}
    {epsilon : K} {withRep : Bool} {b1 b2 : Option Int} {batch : Nat} {out : MabOut K G}
    (h : solveMab R g glob junk data labels minmax d binType numBins isCls m epsilon withRep b1 batch = .ok out)
    (h1 : Within b1 out.total) (h2 : Within b2 out.total) :
    solveMab R g glob junk data labels minmax d binType numBins isCls m epsilon withRep b2 batch = .ok out := by
  unfold solveMab at h ⊢
  cases data with
  | nil => cases h
  | cons row rows =>
    simp only [] at h ⊢
    split_ifs at h ⊢
    cases numBins with
    | none => cases h
    | some B =>
      simp only [] at h ⊢
      cases hm : makeHistograms R glob.np isCls (row :: rows) labels minmax d binType B with
      | error e => rw [hm] at h; cases h
      | ok hs =>
        rw [hm] at h
        simp only [] at h ⊢
        cases hi : mabInit row.length B (row :: rows).length junk withRep hs g with
        | error e => rw [hi] at h; cases h
        | ok s0 =>
          rw [hi] at h
          simp only [] at h ⊢
          cases hl : mabLoop R row.length B (row :: rows) labels m epsilon withRep b1 batch (mabFuel row.length B (row :: rows).length) s0 with
          | error e => rw [hl] at h; cases h
          | ok s =>
            rw [hl] at h
            have ht : out.total = s.total := mabFinish_queries h
            rw [mabLoop_unspent _ hl (ht ▸ h1) (ht ▸ h2)]
            exact h

/-! ### The tree -/

section
variable {R : Rng K G} {mem : Nat → Junk K} {b1 b2 B1 B2 : Option Int}

theorem nodeSolve_unspent {g g' : G} {glob glob' : Glob G} {junk : Junk K} {cfg : TreeCfg K} {node : Node K} {data : List (List K)}
    {labels : List K} {r : Option (SplitRes K)} {q : Nat} (h : nodeSolve R g glob junk cfg node data labels b1 = .ok (r, q, g', glob'))
    (h1 : Within b1 q) (h2 : Within b2 q) : nodeSolve R g glob junk cfg node data labels b2 = .ok (r, q, g', glob') := by
  unfold nodeSolve at h ⊢
  cases hs : cfg.solver with
  | mab =>
    rw [hs] at h
    simp only [] at h ⊢
    split at h
    · cases h
    · rename_i out ho
      simp only [Except.ok.injEq, Prod.mk.injEq] at h
      obtain ⟨rfl, rfl, rfl, rfl⟩ := h
      rw [solveMab_unspent ho h1 h2]
  | exact => rw [hs] at h; exact h
  | other => rw [hs] at h; exact h

theorem calcBestSplit_unspent {g g' : G} {glob glob' : Glob G} {junk : Junk K} {cfg : TreeCfg K} {node node' : Node K}
    (h : calcBestSplit R g glob junk cfg node b1 = .ok (node', g', glob'))
    (h1 : Within b1 (if node.computed then 0 else node'.numQueries)) (h2 : Within b2 (if node.computed then 0 else node'.numQueries)) :
    calcBestSplit R g glob junk cfg node b2 = .ok (node', g', glob') := by
  unfold calcBestSplit at h ⊢
  cases hc : node.computed with
  | true => rw [hc] at h; exact h
  | false =>
    rw [hc] at h h1 h2
    simp only [Bool.false_eq_true, if_false] at h h1 h2 ⊢
    cases hb : nodeBins cfg node with
    | error e => rw [hb] at h; cases h
    | ok nb =>
      rw [hb] at h
      simp only [] at h ⊢
      cases hd : node.data with
      | none => rw [hd] at h; cases h
      | some data =>
        cases hl : node.labels with
        | none => rw [hd, hl] at h; cases h
        | some labels =>
          rw [hd, hl] at h
          simp only [] at h ⊢
          split at h
          · cases h
          · rename_i r q g1 glob1 hs
            have hq : node'.numQueries = q := by
              simp only [Except.ok.injEq, Prod.mk.injEq] at h
              rw [← h.1]
              cases r <;> rfl
            rw [hq] at h1 h2
            rw [nodeSolve_unspent (b2 := b2) hs h1 h2]
            exact h

/-- The same tree with another budget. -/
def Tree.under (B : Option Int) (t : Tree K G) : Tree K G := { t with remaining := leftOf B t.numQueries }

/-- The same scan with another budget. -/
def Scan.under (B : Option Int) (s : Scan K G) : Scan K G := { s with t := s.t.under B }

theorem scanLeaf_queries {pos id : Nat} {s s1 : Scan K G} (h : scanLeaf R mem pos id s = .ok (some s1)) :
    s.t.numQueries ≤ s1.t.numQueries := by
  unfold scanLeaf at h
  split at h
  · cases h
  · split at h
    · cases h
    · simp only [Except.ok.injEq, Option.some.injEq] at h
      rw [← h]
    · cases hb : noBudget s.t.remaining with
      | true => rw [hb, if_pos rfl] at h; cases h
      | false =>
        rw [hb, if_neg (by simp)] at h
        split at h
        · cases h
        · simp only [Except.ok.injEq, Option.some.injEq] at h
          rw [← h]
          exact Nat.le_add_right _ _

theorem scanLeaf_unspent {pos id : Nat} {s s1 : Scan K G} (h : scanLeaf R mem pos id (s.under B1) = .ok (some s1))
    (h1 : Within B1 s1.t.numQueries) (h2 : Within B2 s1.t.numQueries) :
    scanLeaf R mem pos id (s.under B2) = .ok (some (s1.under B2)) ∧ s1 = s1.under B1 ∧ s.t.numQueries ≤ s1.t.numQueries := by
  have hle : s.t.numQueries ≤ s1.t.numQueries :=
    (scanLeaf_queries h : (s.under B1).t.numQueries ≤ _)
  have e : ∀ B : Option Int, (s.under B).t.nodes = s.t.nodes := fun _ => rfl
  have e1 : ∀ B : Option Int, (s.under B).t.cfg = s.t.cfg := fun _ => rfl
  have e2 : ∀ B : Option Int, (s.under B).t.rng = s.t.rng := fun _ => rfl
  have e3 : ∀ B : Option Int, (s.under B).glob = s.glob := fun _ => rfl
  have e4 : ∀ B : Option Int, (s.under B).t.remaining = leftOf B s.t.numQueries := fun _ => rfl
  refine ⟨?_, ?_, hle⟩
  · unfold scanLeaf at h ⊢
    rw [e] at h ⊢
    cases hn : s.t.nodes[id]? with
    | none => rw [hn] at h; cases h
    | some leaf =>
      rw [hn] at h
      simp only [e1] at h ⊢
      cases hs : splittableConstraints s.t.cfg leaf with
      | error e => rw [hs] at h; cases h
      | ok b =>
        rw [hs] at h
        cases b with
        | false =>
          simp only [Except.ok.injEq, Option.some.injEq] at h ⊢
          rw [← h]
          rfl
        | true =>
          simp only [e2, e3, e4] at h ⊢
          have n1 := noBudget_leftOf.2 (h1.mono hle)
          have n2 := noBudget_leftOf.2 (h2.mono hle)
          rw [n1] at h
          rw [n2]
          simp only [Bool.false_eq_true, if_false] at h ⊢
          split at h
          · cases h
          · rename_i leaf1 g gl hc
            simp only [Except.ok.injEq, Option.some.injEq] at h
            have hq : s1.t.numQueries = s.t.numQueries + (if leaf.computed then 0 else leaf1.numQueries) := by rw [← h]; rfl
            rw [hq] at h1 h2
            rw [calcBestSplit_unspent (b2 := leftOf B2 s.t.numQueries) hc (within_leftOf.2 h1) (within_leftOf.2 h2)]
            simp only [Except.ok.injEq, Option.some.injEq]
            rw [← h]
            unfold Scan.under Tree.under
            simp only [Scan.mk.injEq, Tree.mk.injEq, true_and, and_true]
            exact ⟨leftOf_leftOf _ _ _, rfl⟩
  · unfold scanLeaf at h
    split at h
    · cases h
    · split at h
      · cases h
      · simp only [Except.ok.injEq, Option.some.injEq] at h
        rw [← h]
        rfl
      · have n1 : noBudget (s.under B1).t.remaining = false := noBudget_leftOf.2 (h1.mono hle)
        rw [n1, if_neg (by simp)] at h
        split at h
        · cases h
        · simp only [Except.ok.injEq, Option.some.injEq] at h
          rw [← h]
          unfold Scan.under Tree.under
          simp only [Scan.mk.injEq, Tree.mk.injEq, true_and, and_true]
          exact leftOf_leftOf _ _ _

theorem scanLeaves_queries (ids : List Nat) : ∀ (pos : Nat) {s s1 : Scan K G}, scanLeaves R mem pos ids s = .ok s1 →
    s.t.numQueries ≤ s1.t.numQueries := by
  induction ids with
  | nil => intro pos s s1 h; cases h; exact le_refl _
  | cons id ids ih =>
    intro pos s s1 h
    unfold scanLeaves at h
    split at h
    · cases h
    · cases h; exact le_refl _
    · rename_i s2 hs
      exact le_trans (scanLeaf_queries hs) (ih _ h)

theorem scanLeaves_unspent (ids : List Nat) : ∀ (pos : Nat) {s s1 : Scan K G}, scanLeaves R mem pos ids (s.under B1) = .ok s1 →
    Within B1 s1.t.numQueries → Within B2 s1.t.numQueries →
    scanLeaves R mem pos ids (s.under B2) = .ok (s1.under B2) ∧ s1 = s1.under B1 ∧ s.t.numQueries ≤ s1.t.numQueries := by
  induction ids with
  | nil => intro pos s s1 h _ _; cases h; exact ⟨rfl, rfl, le_refl _⟩
  | cons id ids ih =>
    intro pos s s1 h h1 h2
    unfold scanLeaves at h ⊢
    cases hs : scanLeaf R mem pos id (s.under B1) with
    | error e => rw [hs] at h; cases h
    | ok o =>
      rw [hs] at h
      cases o with
      | none =>
        exfalso
        cases h
        have n1 : noBudget (s.under B1).t.remaining = false := noBudget_leftOf.2 h1
        unfold scanLeaf at hs
        split at hs
        · cases hs
        · split at hs
          · cases hs
          · cases hs
          · rw [n1] at hs
            simp only [Bool.false_eq_true, if_false] at hs
            split at hs <;> cases hs
      | some s2 =>
        simp only [] at h
        have ht := scanLeaves_queries _ _ h
        obtain ⟨a1, a2, a3⟩ := scanLeaf_unspent (B2 := B2) hs (h1.mono ht) (h2.mono ht)
        rw [a2] at h
        obtain ⟨c1, c2, c3⟩ := ih _ h h1 h2
        rw [a1]
        exact ⟨c1, c2, a3.trans ht⟩

theorem splitNode_under (B : Option Int) (glob : Glob G) (j : Junk K) (t : Tree K G) (id : Nat) :
    splitNode R glob j (t.under B) id = (splitNode R glob j t id).map (fun p => (p.1.under B, p.2)) := by
  have core : ∀ (t : Tree K G) (nd : Node K), splitNodeCore R (t.under B) id nd = (splitNodeCore R t id nd).map (Tree.under B) := by
    intro t nd
    have e1 : ∀ (g : G) (nd : Node K) (n : Nat) (l : List Nat), childNode R g (t.under B) nd n l = childNode R g t nd n l :=
      fun _ _ _ _ => rfl
    unfold splitNodeCore
    cases nd.splitReduction with
    | none => rfl
    | some red =>
      simp only []
      cases red.lt (.fin 0) with
      | false => rfl
      | true =>
        simp only [Bool.not_true, Bool.false_eq_true, if_false]
        cases nd.data with
        | none => rfl
        | some data =>
          cases nd.labels with
          | none => rfl
          | some labels =>
            simp only []
            cases colE data nd.prevSplitFeature with
            | error e => rfl
            | ok col =>
              simp only [e1]
              split_ifs
              · rfl
              · have e2 : (t.under B).rng = t.rng := rfl
                rw [e2]
                cases childNode R t.rng t nd labels.length (splitIdcs nd.idcs col nd.splitValue).1 with
                | error e => rfl
                | ok p =>
                  simp only []
                  cases childNode R p.2 t nd labels.length (splitIdcs nd.idcs col nd.splitValue).2 with
                  | error e => rfl
                  | ok q => rfl
  have e2 : ∀ (g : G) (gl : Glob G) (j : Junk K) (nd : Node K) (b : Option Int),
      calcBestSplit R g gl j (t.under B).cfg nd b = calcBestSplit R g gl j t.cfg nd b := fun _ _ _ _ _ => rfl
  unfold splitNode
  have e3 : (t.under B).nodes = t.nodes := rfl
  have e4 : (t.under B).rng = t.rng := rfl
  rw [e3, e4]
  cases t.nodes[id]? with
  | none => rfl
  | some node =>
    simp only [e2]
    cases node.alreadySplit with
    | true => rfl
    | false =>
      simp only [Bool.false_eq_true, if_false]
      cases (if node.splitFeature = none then calcBestSplit R t.rng glob j t.cfg node none else .ok (node, t.rng, glob)) with
      | error e => rfl
      | ok p =>
        obtain ⟨node1, g, glob'⟩ := p
        simp only []
        have e5 : ({ t.under B with nodes := t.nodes.set id node1, rng := g } : Tree K G) =
            Tree.under B { t with nodes := t.nodes.set id node1, rng := g } := rfl
        rw [e5, core]
        cases splitNodeCore R { t with nodes := t.nodes.set id node1, rng := g } id node1 with
        | error e => rfl
        | ok t' => rfl

theorem splitBest_under (B : Option Int) (s : Scan K G) :
    splitBest R mem (s.under B) = (splitBest R mem s).map (fun p => (p.1, p.2.1.under B, p.2.2)) := by
  unfold splitBest
  have e1 : (s.under B).best = s.best := rfl
  have e2 : (s.under B).t.cfg.minImpDec = s.t.cfg.minImpDec := rfl
  rw [e1, e2]
  cases s.best with
  | none => rfl
  | some b =>
    obtain ⟨pos, id, red⟩ := b
    simp only []
    cases red.lt (.fin s.t.cfg.minImpDec) with
    | false => rfl
    | true =>
      simp only [if_true]
      unfold performSplit
      have e3 : splitNode R (s.under B).glob (mem id) (s.under B).t id = (splitNode R s.glob (mem id) s.t id).map (fun p => (p.1.under B, p.2)) :=
        splitNode_under B _ _ _ _
      rw [e3]
      cases splitNode R s.glob (mem id) s.t id with
      | error e => rfl
      | ok p => rfl

theorem splitNodeCore_queries {t t' : Tree K G} {id : Nat} {nd : Node K} (h : splitNodeCore R t id nd = .ok t') :
    t'.numQueries = t.numQueries := by
  unfold splitNodeCore at h
  split at h
  · cases h; rfl
  · split_ifs at h
    split at h
    · split at h
      · cases h
      · dsimp only at h
        split_ifs at h
        split at h
        · cases h
        · split at h
          · cases h
          · cases h; rfl
    · cases h

theorem splitNode_queries {glob gl : Glob G} {j : Junk K} {t t' : Tree K G} {id : Nat} (h : splitNode R glob j t id = .ok (t', gl)) :
    t'.numQueries = t.numQueries := by
  unfold splitNode at h
  split at h
  · cases h
  · split_ifs at h
    all_goals
      split at h
      · cases h
      · split at h
        · cases h
        · rename_i hc
          cases h
          have hq := splitNodeCore_queries hc
          exact hq

theorem splitBest_queries {s : Scan K G} {b : Bool} {t' : Tree K G} {gl : Glob G} (h : splitBest R mem s = .ok (b, t', gl)) :
    t'.numQueries = s.t.numQueries := by
  unfold splitBest at h
  split at h
  · split_ifs at h
    · split at h
      · cases h
      · rename_i hp
        cases h
        unfold performSplit at hp
        split at hp
        · cases hp
        · rename_i hs
          cases hp
          have hq := splitNode_queries hs
          exact hq
    · cases h; rfl
  · cases h; rfl

theorem fitStep_unspent {t t1 : Tree K G} {gl gl1 : Glob G} {b : Bool} (h : fitStep R mem (t.under B1) gl = .ok (b, t1, gl1))
    (h1 : Within B1 t1.numQueries) (h2 : Within B2 t1.numQueries) :
    fitStep R mem (t.under B2) gl = .ok (b, t1.under B2, gl1) ∧ t1 = t1.under B1 ∧ t.numQueries ≤ t1.numQueries := by
  have e1 : ∀ B : Option Int, (t.under B).cfg = t.cfg := fun _ => rfl
  have e2 : ∀ B : Option Int, (t.under B).leaves = t.leaves := fun _ => rfl
  unfold fitStep at h ⊢
  simp only [e1, e2] at h ⊢
  cases hl : leafLimit t.cfg.maxLeafNodes t.leaves.length with
  | error e => rw [hl] at h; cases h
  | ok lb =>
    rw [hl] at h
    cases lb with
    | true =>
      simp only [Except.ok.injEq, Prod.mk.injEq] at h
      obtain ⟨rfl, rfl, rfl⟩ := h
      exact ⟨rfl, rfl, le_refl _⟩
    | false =>
      simp only [] at h ⊢
      have e3 : ∀ B : Option Int, ({ t := t.under B, glob := gl, best := none } : Scan K G) = Scan.under B { t := t, glob := gl, best := none } :=
        fun _ => rfl
      rw [e3] at h ⊢
      cases hs : scanLeaves R mem 0 t.leaves (Scan.under B1 { t := t, glob := gl, best := none }) with
      | error e => rw [hs] at h; cases h
      | ok s =>
        rw [hs] at h
        simp only [] at h
        cases hb : splitBest R mem s with
        | error e => rw [hb] at h; cases h
        | ok p =>
          obtain ⟨b', t2, gl2⟩ := p
          rw [hb] at h
          simp only [] at h
          have hq := splitBest_queries hb
          cases hd : getDepth t2 with
          | error e => rw [hd] at h; cases h
          | ok d =>
            rw [hd] at h
            simp only [Except.ok.injEq, Prod.mk.injEq] at h
            obtain ⟨rfl, rfl, rfl⟩ := h
            have hq' : s.t.numQueries = t2.numQueries := hq.symm
            obtain ⟨a1, a2, a3⟩ := scanLeaves_unspent (B2 := B2) _ _ hs (hq' ▸ h1) (hq' ▸ h2)
            rw [a1]
            simp only []
            have c := splitBest_under (R := R) (mem := mem) B2 s
            rw [hb] at c
            have c1 := splitBest_under (R := R) (mem := mem) B1 s
            rw [← a2, hb] at c1
            simp only [Except.map, Except.ok.injEq, Prod.mk.injEq] at c c1
            rw [c]
            simp only []
            have e4 : getDepth (t2.under B2) = getDepth t2 := rfl
            rw [e4, hd]
            refine ⟨rfl, ?_, ?_⟩
            · have : t2.remaining = leftOf B1 t2.numQueries := congrArg Tree.remaining c1.2.1
              unfold Tree.under
              simp only [Tree.mk.injEq, true_and, and_true]
              exact this
            · exact a3.trans (le_of_eq hq')

theorem fitStep_queries {t t1 : Tree K G} {gl gl1 : Glob G} {b : Bool} (h : fitStep R mem t gl = .ok (b, t1, gl1)) :
    t.numQueries ≤ t1.numQueries := by
  unfold fitStep at h
  split at h
  · cases h
  · cases h; exact le_refl _
  · split at h
    · cases h
    · rename_i s hs
      split at h
      · cases h
      · rename_i hb
        split at h
        · cases h
        · cases h
          refine le_trans ?_ (le_of_eq (splitBest_queries hb).symm)
          exact scanLeaves_queries _ _ hs

theorem fitLoop_queries : ∀ (n : Nat) {t t1 : Tree K G} {gl gl1 : Glob G}, fitLoop R mem n t gl = .ok (t1, gl1) → t.numQueries ≤ t1.numQueries
  | 0, _, _, _, _, h => by cases h
  | n + 1, t, t1, gl, gl1, h => by
    unfold fitLoop at h
    split at h
    · cases h
    · rename_i hs
      cases h
      exact fitStep_queries hs
    · rename_i hs
      exact (fitStep_queries hs).trans (fitLoop_queries n h)

theorem fitLoop_unspent : ∀ (n : Nat) {t t1 : Tree K G} {gl gl1 : Glob G}, fitLoop R mem n (t.under B1) gl = .ok (t1, gl1) →
    Within B1 t1.numQueries → Within B2 t1.numQueries → fitLoop R mem n (t.under B2) gl = .ok (t1.under B2, gl1)
  | 0, _, _, _, _, h, _, _ => by cases h
  | n + 1, t, t1, gl, gl1, h, h1, h2 => by
    unfold fitLoop at h ⊢
    cases hs : fitStep R mem (t.under B1) gl with
    | error e => rw [hs] at h; cases h
    | ok p =>
      obtain ⟨b, t2, gl2⟩ := p
      rw [hs] at h
      cases b with
      | false =>
        cases h
        rw [(fitStep_unspent hs h1 h2).1]
      | true =>
        simp only [] at h
        have hq := fitLoop_queries n h
        obtain ⟨a1, a2, _⟩ := fitStep_unspent (B2 := B2) hs (h1.mono hq) (h2.mono hq)
        rw [a1]
        rw [a2] at h
        exact fitLoop_unspent n h h1 h2

/-- A tree fitted with two budgets, neither of them used up. -/
theorem fit_unspent {t t1 : Tree K G} {gl gl1 : Glob G} (h : Tree.fit R mem (t.under B1) gl none none = .ok (t1, gl1))
    (h1 : Within B1 t1.numQueries) (h2 : Within B2 t1.numQueries) : Tree.fit R mem (t.under B2) gl none none = .ok (t1.under B2, gl1) := by
  unfold Tree.fit bothOrNeither at h ⊢
  have e1 : ∀ B : Option Int, (t.under B).cfg = t.cfg := fun _ => rfl
  have e2 : ∀ B : Option Int, (t.under B).data = t.data := fun _ => rfl
  have e3 : ∀ B : Option Int, (t.under B).discrete = t.discrete := fun _ => rfl
  simp only [e1, e2, e3] at h ⊢
  cases hd : maybeDiscrete t.cfg.makeDiscrete t.data t.discrete with
  | error e => rw [hd] at h; cases h
  | ok dd =>
    rw [hd] at h
    simp only [] at h ⊢
    cases hs : t.cfg.splitter with
    | best =>
      rw [hs] at h
      exact fitLoop_unspent (t := { t with discrete := dd, leaves := t.leaves ++ [0] }) _ h h1 h2
    | depth => rw [hs] at h; cases h
    | other => rw [hs] at h; cases h

end

end FF
