import Verif.Model.Recursive
import Verif.Spec.Recursive
import Verif.Props.Cart
import Verif.Props.Total

/-!
# Depth-first growth, step by step

`recursiveSplit` adds a node to `leaves` only when it is finished with it. The proofs follow it with the steps of `fit` on the same tree
with another list of leaves: the finished ones together with those that it has still to visit.
-/

namespace FF

open Spec

set_option linter.unusedSectionVars false

variable {K : Type} [Field K] [LinearOrder K] [IsStrictOrderedRing K] [FloorRing K] [NpFun K] {G G' : Type}

/-- A node that was not looked at. -/
structure Unseen (nd : Node K) : Prop where
  comp : nd.computed = false
  splittable : nd.isSplittable = none
  queries : nd.numQueries = 0
  unsplit : nd.alreadySplit = false
  left_eq : nd.left = none
  right_eq : nd.right = none
  red_eq : nd.splitReduction = none

theorem Fresh.unseen {cfg : TreeCfg K} {tdata : List (List K)} {tlabels : List K} {tfeats : List Nat} {tdisc : DiscDict K}
    {idcs : List Nat} {depth : Nat} {proportion : K} {numBins : Option Nat} {nd : Node K}
    (h : Fresh cfg tdata tlabels tfeats tdisc idcs depth proportion numBins nd) : Unseen nd :=
  ⟨h.comp_eq, h.splittable_eq, h.q_eq, h.split_eq, h.left_eq, h.right_eq, h.red_eq⟩

/-- A node that was found not to be worth splitting. -/
structure Refused (cfg : TreeCfg K) (treeN : Nat) (nd : Node K) : Prop where
  left_eq : nd.left = none
  right_eq : nd.right = none
  why : splittableConstraints cfg nd = .ok false ∨ nd.computed = true ∧ splittableImpurity cfg treeN nd = false

/-- With at most as many rows in the node as in the tree, the weighted reduction is not below the unweighted one. -/
theorem red_of_weighted {red : XF K} {n N : Nat} {m : K} (hn : n ≤ N) (hneg : red.lt (.fin 0) = true)
    (h : ((red.mul (xnat n)).div (xnat N)).lt (.fin m) = true) : red.lt (.fin m) = true := by
  cases red with
  | fin r =>
    simp only [XF.lt, decide_eq_true_eq] at hneg ⊢
    unfold xnat at h
    simp only [XF.mul, XF.div] at h
    by_cases hN : ((N : Nat) : K) = 0
    · exfalso
      have hN0 : N = 0 := by exact_mod_cast hN
      obtain rfl : n = 0 := by omega
      rw [if_pos hN] at h
      simp [XF.signInf, XF.lt] at h
    · rw [if_neg hN] at h
      simp only [XF.lt, decide_eq_true_eq] at h
      have hN1 : (0 : K) < N := lt_of_le_of_ne (Nat.cast_nonneg N) (Ne.symm hN)
      refine lt_of_le_of_lt ?_ h
      rw [le_div_iff₀ hN1]
      have : (n : K) ≤ N := by exact_mod_cast hn
      nlinarith
  | pinf => cases hneg
  | ninf => rfl
  | nan => cases hneg

section
variable {R : Rng K G} {mem : Nat → Junk K} {A : TreeArgs K} {dd : DiscDict K} {t0 t : Tree K G}

theorem splitNode_leaves (L : List Nat) (glob : Glob G) (j : Junk K) (t : Tree K G) (id : Nat) :
    splitNode R glob j { t with leaves := L } id = (splitNode R glob j t id).map (fun p => ({ p.1 with leaves := L }, p.2)) := by
  have core : ∀ (t : Tree K G) (nd : Node K), splitNodeCore R { t with leaves := L } id nd =
      (splitNodeCore R t id nd).map (fun t => { t with leaves := L }) := by
    intro t nd
    have e1 : ∀ (g : G) (nd : Node K) (n : Nat) (l : List Nat), childNode R g { t with leaves := L } nd n l = childNode R g t nd n l :=
      fun _ _ _ _ => rfl
    unfold splitNodeCore
    cases nd.splitReduction with
    | none => rfl
    | some red =>
      simp only [e1]
      split
      · rfl
      · split
        · split
          · rfl
          · split
            · rfl
            · split
              · rfl
              · split
                · rfl
                · rfl
        · rfl
  unfold splitNode
  simp only []
  cases t.nodes[id]? with
  | none => rfl
  | some node =>
    simp only []
    split
    · rfl
    · split
      · rfl
      · rename_i nd g gl _
        have e := core { t with nodes := t.nodes.set id nd, rng := g } nd
        simp only [] at e
        rw [e]
        cases splitNodeCore R { t with nodes := t.nodes.set id nd, rng := g } id nd with
        | error e => rfl
        | ok t' => rfl

theorem splitNode_splits (L : Nat) (glob : Glob G) (j : Junk K) (t : Tree K G) (id : Nat) :
    splitNode R glob j { t with numSplits := L } id = (splitNode R glob j t id).map (fun p => ({ p.1 with numSplits := L }, p.2)) := by
  have core : ∀ (t : Tree K G) (nd : Node K), splitNodeCore R { t with numSplits := L } id nd =
      (splitNodeCore R t id nd).map (fun t => { t with numSplits := L }) := by
    intro t nd
    have e1 : ∀ (g : G) (nd : Node K) (n : Nat) (l : List Nat), childNode R g { t with numSplits := L } nd n l = childNode R g t nd n l :=
      fun _ _ _ _ => rfl
    unfold splitNodeCore
    cases nd.splitReduction with
    | none => rfl
    | some red =>
      simp only [e1]
      split
      · rfl
      · split
        · split
          · rfl
          · split
            · rfl
            · split
              · rfl
              · split
                · rfl
                · rfl
        · rfl
  unfold splitNode
  simp only []
  cases t.nodes[id]? with
  | none => rfl
  | some node =>
    simp only []
    split
    · rfl
    · split
      · rfl
      · rename_i nd g gl _
        have e := core { t with nodes := t.nodes.set id nd, rng := g } nd
        simp only [] at e
        rw [e]
        cases splitNodeCore R { t with nodes := t.nodes.set id nd, rng := g } id nd with
        | error e => rfl
        | ok t' => rfl

/-- The effect of looking at an unseen node. -/
theorem check_step {L : List Nat} {id : Nat} {nd nd1 : Node K} {sp : Bool} {g : G} {glob glob1 : Glob G}
    (hid : id ∈ L) (hn : t.nodes[id]? = some nd) (hu : Unseen nd) (hr : t.remaining = none)
    (h : checkSplittable R t.rng glob (mem id) t.cfg t.nData nd = .ok (sp, nd1, g, glob1)) :
    TStep R mem { t with leaves := L } { t with leaves := L, nodes := t.nodes.set id { nd1 with isSplittable := some sp }, rng := g
                                                numQueries := t.numQueries + nd1.numQueries } ∧
    nd1.left = none ∧ nd1.right = none ∧ nd1.alreadySplit = false ∧ nd1.idcs = nd.idcs ∧
    splittableConstraints t.cfg { nd1 with isSplittable := some sp } = splittableConstraints t.cfg nd ∧
    (sp = false → Refused t.cfg t.nData { nd1 with isSplittable := some sp }) ∧
    (sp = true → splittableConstraints t.cfg nd = .ok true ∧ nd1.computed = true ∧ splittableImpurity t.cfg t.nData nd1 = true ∧
      ∀ red, nd1.splitReduction = some red → nd1.splitFeature ≠ none) := by
  unfold checkSplittable at h
  cases hc : splittableConstraints t.cfg nd with
  | error e => rw [hc] at h; cases h
  | ok b =>
    rw [hc] at h
    cases b with
    | false =>
      cases h
      have hst := TStep.mark (R := R) (mem := mem) (t := { t with leaves := L }) hid hn hc
      rw [show t.numQueries + nd.numQueries = t.numQueries by rw [hu.queries, Nat.add_zero]]
      have e : splittableConstraints t.cfg { nd with isSplittable := some false } = splittableConstraints t.cfg nd :=
        constraints_congr rfl rfl rfl
      refine ⟨hst, hu.left_eq, hu.right_eq, hu.unsplit, rfl, e.trans hc, fun _ => ⟨hu.left_eq, hu.right_eq, Or.inl (e.trans hc)⟩,
        fun h => (by cases h)⟩
    | true =>
      simp only [] at h
      cases hcalc : calcBestSplit R t.rng glob (mem id) t.cfg nd none with
      | error e => rw [hcalc] at h; cases h
      | ok p =>
        obtain ⟨n1, g1, gl1⟩ := p
        rw [hcalc] at h
        cases h
        obtain ⟨nb, data, labels, r, q, hnb, hd, hl, hs, rfl⟩ := calcBestSplit_ok hu.comp hcalc
        have hst := TStep.solve (R := R) (mem := mem) (t := { t with leaves := L }) hid hn hc (by simp only [hr]; intro b hb; cases hb) hu.comp
          hu.splittable hnb hd hl (by simp only [hr]; exact hs)
        have hq : (nodeRecord { nd with numBins := nb } r q).numQueries = q := by
          unfold nodeRecord
          split <;> rfl
        have hcomp : (nodeRecord { nd with numBins := nb } r q).computed = true := by
          unfold nodeRecord
          split <;> rfl
        have hstat : (nodeRecord { nd with numBins := nb } r q).left = none ∧ (nodeRecord { nd with numBins := nb } r q).right = none ∧
            (nodeRecord { nd with numBins := nb } r q).alreadySplit = false ∧
            (nodeRecord { nd with numBins := nb } r q).idcs = nd.idcs ∧ (nodeRecord { nd with numBins := nb } r q).labels = nd.labels ∧
            (nodeRecord { nd with numBins := nb } r q).depth = nd.depth ∧ (nodeRecord { nd with numBins := nb } r q).nData = nd.nData := by
          unfold nodeRecord
          split <;> exact ⟨hu.left_eq, hu.right_eq, hu.unsplit, rfl, rfl, rfl, rfl⟩
        obtain ⟨e1, e2, e3, e4, e5, e6, e7⟩ := hstat
        have hrem : ∀ b : Nat, t.remaining.map (fun x => x - (b : Int)) = t.remaining := fun b => by rw [hr]; rfl
        simp only [hrem] at hst
        rw [show t.numQueries + (nodeRecord { nd with numBins := nb } r q).numQueries = t.numQueries + q by rw [hq]]
        refine ⟨hst, e1, e2, e3, e4, ?_, fun hf => ⟨e1, e2, Or.inr ⟨hcomp, hf⟩⟩, fun ht => ⟨rfl, hcomp, ht, ?_⟩⟩
        · rw [← hc]
          exact constraints_congr e6 e7 e5
        · intro red hred
          unfold nodeRecord at hred ⊢
          cases r with
          | none =>
            have hred' : nd.splitReduction = some red := hred
            rw [hu.red_eq] at hred'
            cases hred'
          | some s => simp

/-- The effect of splitting a node that was found worth it. -/
theorem split_step (hrows : A.rows.length ≤ A.labels.length) {L : List Nat} {id : Nat} {nd : Node K} {glob glob1 : Glob G} {t1 : Tree K G}
    (h : GrowFacts R mem A dd t0 { t with leaves := L }) (hid : id ∈ L) (hn : t.nodes[id]? = some nd)
    (hc : splittableConstraints t.cfg nd = .ok true) (hcomp : nd.computed = true) (hsp : nd.isSplittable = some true)
    (himp : splittableImpurity t.cfg t.nData nd = true) (hun : nd.alreadySplit = false)
    (hfeat : ∀ red, nd.splitReduction = some red → nd.splitFeature ≠ none)
    (hs : splitNode R glob (mem id) { t with numSplits := t.numSplits + 1 } id = .ok (t1, glob1)) :
    ∃ (pos : Nat) (nd' l r : Node K), L[pos]? = some id ∧
      TStep R mem { t with leaves := L } { t1 with leaves := L.eraseIdx pos ++ [t.nodes.length, t.nodes.length + 1] } ∧
      t1.nodes = t.nodes.set id nd' ++ [l, r] ∧ nd'.left = some t.nodes.length ∧ nd'.right = some (t.nodes.length + 1) ∧
      Unseen l ∧ Unseen r ∧ l.idcs.length < nd.idcs.length ∧ r.idcs.length < nd.idcs.length ∧ t1.leaves = t.leaves ∧
      t1.remaining = t.remaining ∧ t1.cfg = t.cfg ∧ t1.nData = t.nData ∧ t1.depth = t.depth := by
  obtain ⟨pos, hpos, hget⟩ := List.mem_iff_getElem.1 hid
  have hget' : L[pos]? = some id := by rw [List.getElem?_eq_getElem hpos, hget]
  have hredE : ∃ red, nd.splitReduction = some red := by
    unfold splittableImpurity at himp
    cases hr : nd.splitReduction with
    | none => rw [hr] at himp; cases himp
    | some red => exact ⟨red, rfl⟩
  obtain ⟨red, hred⟩ := hredE
  unfold splitNode at hs
  simp only [hn, hun, Bool.false_eq_true, if_false] at hs
  rw [if_neg (hfeat red hred)] at hs
  simp only [] at hs
  have e2 : t.nodes.set id nd = t.nodes := by
    obtain ⟨hlt, he⟩ := List.getElem?_eq_some_iff.1 hn
    rw [← he]
    exact List.set_getElem_self hlt
  rw [e2] at hs
  split at hs
  · cases hs
  rename_i t2 hcore
  cases hs
  obtain ⟨data, labels, col, l, r, g1, g2, hneg, hd, hl, hcol, hne1, hne2, hcl, hcr, rfl⟩ := splitNodeCore_ok hred hcore
  have hok := h.nodes _ _ (show NodeAt ({ t with leaves := L } : Tree K G) id nd from hn)
  have hlen : nd.nData ≤ t.nData := by
    have h1 := (h.rows_sublist (show NodeAt ({ t with leaves := L } : Tree K G) id nd from hn)).length_le
    have h2 : t.nData = A.labels.length := h.base.nData.trans h.start.nData
    have h3 := hok.nData_eq
    omega
  have himp' : red.lt (.fin t.cfg.minImpDec) = true := by
    unfold splittableImpurity at himp
    rw [hred] at himp
    exact red_of_weighted hlen hneg himp
  have hst := TStep.split (R := R) (mem := mem) (t := { t with leaves := L }) hget' hn hc hcomp hsp hred hneg himp' hd hl hcol hne1 hne2
    hcl hcr
  have hlens := splitIdcs_length nd.idcs col nd.splitValue
  have p1 := List.length_pos_iff.2 hne1
  have p2 := List.length_pos_iff.2 hne2
  have f1 := Node_init_fresh hcl
  have f2 := Node_init_fresh hcr
  refine ⟨pos, _, l, r, hget', hst, rfl, rfl, rfl, f1.unseen, f2.unseen, ?_, ?_, rfl, rfl, rfl, rfl, rfl⟩
  · rw [f1.idcs_eq]; omega
  · rw [f2.idcs_eq]; omega

/-- What a call of `recursiveSplit` on node `id` does to the tree. `new` are the leaves it appends. -/
structure Visited (R : Rng K G) (mem : Nat → Junk K) (L : List Nat) (id : Nat) (t t' : Tree K G) (L' new : List Nat) : Prop where
  leaves : t'.leaves = t.leaves ++ new
  steps : TSteps R mem { t with leaves := L } { t' with leaves := L' }
  remaining : t'.remaining = none
  cfg : t'.cfg = t.cfg
  nData : t'.nData = t.nData
  depth : t'.depth = t.depth
  grows : t.nodes.length ≤ t'.nodes.length
  others : ∀ j, j ≠ id → j < t.nodes.length → t'.nodes[j]? = t.nodes[j]?
  mem_iff : ∀ j, j ∈ L' ↔ (j ∈ L ∧ j ≠ id) ∨ j ∈ new
  fresh : ∀ j ∈ new, (j = id ∨ t.nodes.length ≤ j) ∧ j < t'.nodes.length
  nodup : new.Nodup
  refused : ∀ j ∈ new, ∃ nd, t'.nodes[j]? = some nd ∧ Refused t'.cfg t'.nData nd
  below : ∀ nodes : List (Node K), nodes[id]? = t'.nodes[id]? →
    (∀ j, t.nodes.length ≤ j → j < t'.nodes.length → nodes[j]? = t'.nodes[j]?) → LeavesBelow nodes id new

theorem recursive_sim (hrows : A.rows.length ≤ A.labels.length) {fuel : Nat} : ∀ {id : Nat} {t t' : Tree K G} {glob glob' : Glob G}
    {L : List Nat}, recursiveSplit R mem fuel id t glob = .ok (t', glob') → GrowFacts R mem A dd t0 { t with leaves := L } → id ∈ L →
    (∃ nd, t.nodes[id]? = some nd ∧ Unseen nd) → t.remaining = none → ∃ L' new, Visited R mem L id t t' L' new := by
  induction fuel with
  | zero => intro id t t' glob glob' L h; cases h
  | succ fuel ih =>
    intro id t t' glob glob' L h hg hid hu hrem
    obtain ⟨nd, hn, hu⟩ := hu
    have hlt : id < t.nodes.length := (List.getElem?_eq_some_iff.1 hn).1
    unfold recursiveSplit at h
    simp only [hn] at h
    cases hch : checkSplittable R t.rng glob (mem id) t.cfg t.nData nd with
    | error e => rw [hch] at h; cases h
    | ok p =>
      obtain ⟨sp, nd1, g, glob1⟩ := p
      rw [hch] at h
      simp only [] at h
      obtain ⟨hst, c1, c2, c3, c4, c5, c6, c7⟩ := check_step hid hn hu hrem hch
      cases sp with
      | false =>
        rw [if_neg (by simp)] at h
        cases h
        have hget : (t.nodes.set id { nd1 with isSplittable := some false })[id]? = some { nd1 with isSplittable := some false } := by
          rw [List.getElem?_set_self hlt]
        exact ⟨L, [id], {
          leaves := rfl
          steps := .one hst
          remaining := hrem
          cfg := rfl
          nData := rfl
          depth := rfl
          grows := by simp [noteSplittable]
          others := fun j hj _ => List.getElem?_set_ne (Ne.symm hj)
          mem_iff := fun j => by
            rw [List.mem_singleton]
            constructor
            · intro hj
              by_cases e : j = id
              · exact Or.inr e
              · exact Or.inl ⟨hj, e⟩
            · rintro (hj | rfl)
              · exact hj.1
              · exact hid
          fresh := fun j hj => by
            rw [List.mem_singleton] at hj
            exact ⟨Or.inl hj, by rw [hj]; simpa [noteSplittable] using hlt⟩
          nodup := List.nodup_singleton id
          refused := fun j hj => by
            rw [List.mem_singleton] at hj
            rw [hj]
            exact ⟨_, hget, c6 rfl⟩
          below := fun nodes e _ => .leaf (e.trans hget) c1 c2 }⟩
      | true =>
        rw [if_pos rfl] at h
        obtain ⟨k1, k2, k3, k4⟩ := c7 rfl
        generalize ht1 : noteSplittable t id nd1 true g = t1 at h
        have hst1 : TStep R mem { t with leaves := L } { t1 with leaves := L } := by rw [← ht1]; exact hst
        have hg1 := hg.next (.one hst1)
        have hn1 : t1.nodes[id]? = some { nd1 with isSplittable := some true } := by
          rw [← ht1]
          exact List.getElem?_set_self hlt
        have hlen1 : t1.nodes.length = t.nodes.length := by rw [← ht1]; simp [noteSplittable]
        have hcfg1 : t1.cfg = t.cfg := by rw [← ht1]; rfl
        have hN1 : t1.nData = t.nData := by rw [← ht1]; rfl
        have hrem1 : t1.remaining = none := by rw [← ht1]; exact hrem
        have hl1 : t1.leaves = t.leaves := by rw [← ht1]; rfl
        have ho1 : ∀ j, j ≠ id → t1.nodes[j]? = t.nodes[j]? := fun j hj => by
          rw [← ht1]
          exact List.getElem?_set_ne (Ne.symm hj)
        cases hsn : splitNode R glob1 (mem id) { t1 with numSplits := t1.numSplits + 1 } id with
        | error e => rw [hsn] at h; cases h
        | ok p2 =>
          obtain ⟨t2, glob2⟩ := p2
          rw [hsn] at h
          simp only [] at h
          obtain ⟨pos, nd', l, r, hpos, hst2, hnodes2, hleft, hright, hul, hur, _, _, hl2, hrem2, hcfg2, hN2, hdep2⟩ :=
            split_step hrows hg1 hid hn1 (by rw [hcfg1, c5]; exact k1) k2 rfl
              (by rw [hcfg1, hN1]; exact k3) c3 k4 hsn
          have hg2 := hg1.next (.one hst2)
          have hlen2 : t2.nodes.length = t.nodes.length + 2 := by rw [hnodes2]; simp [hlen1]
          have hn2 : t2.nodes[id]? = some nd' := by
            rw [hnodes2, List.getElem?_append_left (by simpa using by omega)]
            exact List.getElem?_set_self (by omega)
          have ho2 : ∀ j, j ≠ id → j < t.nodes.length → t2.nodes[j]? = t.nodes[j]? := fun j hj hjl => by
            rw [hnodes2, List.getElem?_append_left (by simpa using by omega), List.getElem?_set_ne (Ne.symm hj)]
            exact ho1 j hj
          have hnl : t2.nodes[t.nodes.length]? = some l := by
            rw [hnodes2, List.getElem?_append_right (by simp [hlen1])]
            simp [hlen1]
          have hnr : t2.nodes[t.nodes.length + 1]? = some r := by
            rw [hnodes2, List.getElem?_append_right (by simp [hlen1])]
            simp [hlen1]
          rw [hn2] at h
          simp only [Option.bind_some, hleft, hright] at h
          rw [hlen1] at h
          cases hrl : recursiveSplit R mem fuel t.nodes.length t2 glob2 with
          | error e => rw [hrl] at h; cases h
          | ok p3 =>
            obtain ⟨t3, glob3⟩ := p3
            rw [hrl] at h
            simp only [] at h
            rw [hlen1] at hg2 hst2
            obtain ⟨L3, new3, v3⟩ := ih hrl hg2 (by simp) ⟨l, hnl, hul⟩ (hrem2.trans hrem1)
            have hg3 := hg2.next v3.steps
            have hnr3 : t3.nodes[t.nodes.length + 1]? = some r := by
              rw [v3.others _ (by omega) (by omega)]
              exact hnr
            have hin : t.nodes.length + 1 ∈ L3 := (v3.mem_iff _).2 (Or.inl ⟨by simp, by omega⟩)
            obtain ⟨L4, new4, v4⟩ := ih h hg3 hin ⟨r, hnr3, hur⟩ v3.remaining
            have hlen3 := v3.grows
            have hlen4 := v4.grows
            have hnod : ∀ j, j ∈ L.eraseIdx pos ↔ j ∈ L ∧ j ≠ id := by
              intro j
              have hnd := hg.sim.nodup
              simp only [] at hnd
              rw [List.mem_eraseIdx_iff_getElem?]
              constructor
              · rintro ⟨i, hi, e⟩
                refine ⟨List.mem_of_getElem? e, ?_⟩
                rintro rfl
                obtain ⟨a1, a2⟩ := List.getElem?_eq_some_iff.1 e
                obtain ⟨b1, b2⟩ := List.getElem?_eq_some_iff.1 hpos
                exact hi ((List.Nodup.getElem_inj_iff hnd).1 (a2.trans b2.symm))
              · rintro ⟨hj, hne⟩
                obtain ⟨i, hi⟩ := List.mem_iff_getElem?.1 hj
                refine ⟨i, ?_, hi⟩
                rintro rfl
                rw [hpos] at hi
                exact hne (Option.some.inj hi).symm
            have hstep : ∀ j, j < t3.nodes.length → j ≠ t.nodes.length + 1 → t'.nodes[j]? = t3.nodes[j]? :=
              fun j h1 h2 => v4.others j h2 h1
            have hidn : t'.nodes[id]? = some nd' := by
              rw [hstep id (by omega) (by omega), v3.others id (by omega) (by omega)]
              exact hn2
            exact ⟨L4, new3 ++ new4, {
              leaves := by rw [v4.leaves, v3.leaves, hl2, hl1, List.append_assoc]
              steps := (((TSteps.one hst1).step hst2).trans v3.steps).trans v4.steps
              remaining := v4.remaining
              cfg := by rw [v4.cfg, v3.cfg, hcfg2, hcfg1]
              nData := by rw [v4.nData, v3.nData, hN2, hN1]
              depth := by rw [v4.depth, v3.depth, hdep2, ← ht1]; rfl
              grows := by omega
              others := fun j h1 h2 => by
                rw [hstep j (by omega) (by omega), v3.others j (by omega) (by omega)]
                exact ho2 j h1 h2
              mem_iff := fun j => by
                rw [v4.mem_iff, v3.mem_iff, List.mem_append, hnod, List.mem_append]
                have hr3 : j ∈ new3 → j ≠ t.nodes.length + 1 := by
                  intro hj e
                  obtain ⟨h1 | h1, _⟩ := v3.fresh j hj <;> omega
                have hlL : ∀ j ∈ L, j < t.nodes.length := fun j hj => by
                  obtain ⟨n, hn, _⟩ := hg.sim.leaf j hj
                  exact (List.getElem?_eq_some_iff.1 hn).1
                simp only [List.mem_cons, List.not_mem_nil, or_false]
                constructor
                · rintro (⟨⟨(h1 | h1 | h1), h2⟩ | h1, h3⟩ | h1)
                  · exact Or.inl h1
                  · exact absurd h1 h2
                  · exact absurd h1 h3
                  · exact Or.inr (Or.inl h1)
                  · exact Or.inr (Or.inr h1)
                · rintro (h1 | h1 | h1)
                  · have := hlL j h1.1
                    exact Or.inl ⟨Or.inl ⟨Or.inl h1, by omega⟩, by omega⟩
                  · exact Or.inl ⟨Or.inr h1, hr3 h1⟩
                  · exact Or.inr h1
              fresh := fun j hj => by
                rcases List.mem_append.1 hj with hj | hj
                · have := v3.fresh j hj
                  omega
                · have := v4.fresh j hj
                  omega
              nodup := by
                refine List.nodup_append.2 ⟨v3.nodup, v4.nodup, ?_⟩
                intro a ha b hb e
                have h1 := v3.fresh a ha
                have h2 := v4.fresh b hb
                omega
              refused := fun j hj => by
                rcases List.mem_append.1 hj with hj | hj
                · obtain ⟨n, h1, h2⟩ := v3.refused j hj
                  have := v3.fresh j hj
                  exact ⟨n, by rw [hstep j this.2 (by omega)]; exact h1, by rw [v4.cfg, v4.nData]; exact h2⟩
                · exact v4.refused j hj
              below := fun nodes e1 e2 => by
                refine .node (e1.trans hidn) hleft hright ?_ ?_
                · rw [hlen1]
                  refine v3.below nodes ?_ (fun j h1 h2 => ?_)
                  · rw [e2 _ (by omega) (by omega), hstep _ (by omega) (by omega)]
                  · rw [e2 j (by omega) (by omega), hstep j (by omega) (by omega)]
                · rw [hlen1]
                  exact v4.below nodes (e2 _ (by omega) (by omega)) (fun j h1 h2 => e2 j (by omega) h2) }⟩

/-- Looking at an unseen node does not raise. -/
theorem check_total (hT : TrainOK A) (hsolve : SolverTotal R mem A) {L : List Nat} {id : Nat} {nd : Node K} {glob : Glob G}
    (h : GrowFacts R mem A dd t0 { t with leaves := L }) (hid : id ∈ L) (hn : t.nodes[id]? = some nd) (hr : t.remaining = none) :
    ∃ x, checkSplittable R t.rng glob (mem id) t.cfg t.nData nd = .ok x := by
  obtain ⟨r, hs⟩ := scanLeaf_total (pos := 0) (s := { t := { t with leaves := L }, glob := glob, best := none }) hT hsolve h hid
  unfold scanLeaf at hs
  simp only [hn] at hs
  unfold checkSplittable
  cases hc : splittableConstraints t.cfg nd with
  | error e => rw [hc] at hs; cases hs
  | ok b =>
    cases b with
    | false => exact ⟨_, rfl⟩
    | true =>
      rw [hc] at hs
      simp only [hr] at hs
      rw [if_neg (by simp [noBudget])] at hs
      simp only []
      cases hcalc : calcBestSplit R t.rng glob (mem id) t.cfg nd none with
      | error e => rw [hcalc] at hs; cases hs
      | ok p => exact ⟨_, rfl⟩

theorem recursive_total (hT : TrainOK A) (hsolve : SolverTotal R mem A) (hsep : SolverSeparates R mem A)
    (hrows : A.rows.length ≤ A.labels.length) {fuel : Nat} : ∀ {id : Nat} {t : Tree K G} {glob : Glob G} {L : List Nat} {nd : Node K},
    GrowFacts R mem A dd t0 { t with leaves := L } → id ∈ L → t.nodes[id]? = some nd → Unseen nd → t.remaining = none →
    nd.idcs.length < fuel → ∃ t' glob', recursiveSplit R mem fuel id t glob = .ok (t', glob') := by
  induction fuel with
  | zero => intro id t glob L nd _ _ _ _ _ h; omega
  | succ fuel ih =>
    intro id t glob L nd hg hid hn hu hrem hfuel
    have hlt : id < t.nodes.length := (List.getElem?_eq_some_iff.1 hn).1
    obtain ⟨⟨sp, nd1, g, glob1⟩, hch⟩ := check_total (glob := glob) hT hsolve hg hid hn hrem
    unfold recursiveSplit
    simp only [hn]
    rw [hch]
    simp only []
    obtain ⟨hst, c1, c2, c3, c4, c5, c6, c7⟩ := check_step hid hn hu hrem hch
    cases sp with
    | false =>
      rw [if_neg (by simp)]
      exact ⟨_, _, rfl⟩
    | true =>
      rw [if_pos rfl]
      obtain ⟨k1, k2, k3, k4⟩ := c7 rfl
      generalize ht1 : noteSplittable t id nd1 true g = t1
      have hst1 : TStep R mem { t with leaves := L } { t1 with leaves := L } := by rw [← ht1]; exact hst
      have hg1 := hg.next (.one hst1)
      have hn1 : t1.nodes[id]? = some { nd1 with isSplittable := some true } := by
        rw [← ht1]
        exact List.getElem?_set_self hlt
      have hlen1 : t1.nodes.length = t.nodes.length := by rw [← ht1]; simp [noteSplittable]
      have hcfg1 : t1.cfg = t.cfg := by rw [← ht1]; rfl
      have hN1 : t1.nData = t.nData := by rw [← ht1]; rfl
      have hrem1 : t1.remaining = none := by rw [← ht1]; exact hrem
      obtain ⟨pos, hpos⟩ := List.mem_iff_getElem?.1 hid
      obtain ⟨red, hred⟩ : ∃ red, nd1.splitReduction = some red := by
        unfold splittableImpurity at k3
        cases hr : nd1.splitReduction with
        | none => rw [hr] at k3; cases k3
        | some red => exact ⟨red, rfl⟩
      have hcon1 : splittableConstraints t1.cfg { nd1 with isSplittable := some true } = .ok true := by rw [hcfg1, c5]; exact k1
      obtain ⟨q, hq⟩ := performSplit_total (s := { t := { t1 with leaves := L }, glob := glob1, best := none }) hT hsep hg1
        (pos := pos) (id := id) (red := red) ⟨hpos, _, hn1, hcon1, k2, rfl, hred⟩
      have hsplit : ∃ p, splitNode R glob1 (mem id) t1 id = .ok p := by
        unfold performSplit at hq
        simp only [] at hq
        rw [splitNode_leaves] at hq
        cases hsn : splitNode R glob1 (mem id) t1 id with
        | error e => rw [hsn] at hq; cases hq
        | ok p => exact ⟨p, rfl⟩
      have hsplit2 : ∃ p, splitNode R glob1 (mem id) { t1 with numSplits := t1.numSplits + 1 } id = .ok p := by
        obtain ⟨p, hp⟩ := hsplit
        rw [splitNode_splits, hp]
        exact ⟨_, rfl⟩
      obtain ⟨⟨t2, glob2⟩, hsn⟩ := hsplit2
      rw [hsn]
      simp only []
      obtain ⟨pos, nd', l, r, hpos, hst2, hnodes2, hleft, hright, hul, hur, hll, hlr, hl2, hrem2, hcfg2, hN2, hdep2⟩ :=
        split_step hrows hg1 hid hn1 hcon1 k2 rfl (by rw [hcfg1, hN1]; exact k3) c3 k4 hsn
      have hg2 := hg1.next (.one hst2)
      have hlen2 : t2.nodes.length = t.nodes.length + 2 := by rw [hnodes2]; simp [hlen1]
      have hn2 : t2.nodes[id]? = some nd' := by
        rw [hnodes2, List.getElem?_append_left (by simpa using by omega)]
        exact List.getElem?_set_self (by omega)
      have hnl : t2.nodes[t.nodes.length]? = some l := by
        rw [hnodes2, List.getElem?_append_right (by simp [hlen1])]
        simp [hlen1]
      have hnr : t2.nodes[t.nodes.length + 1]? = some r := by
        rw [hnodes2, List.getElem?_append_right (by simp [hlen1])]
        simp [hlen1]
      simp only [c4] at hll hlr
      rw [hn2]
      simp only [Option.bind_some, hleft, hright]
      rw [hlen1] at hg2 ⊢
      obtain ⟨t3, glob3, h3⟩ := ih (glob := glob2) hg2 (by simp) hnl hul (hrem2.trans hrem1) (by omega)
      rw [h3]
      simp only []
      obtain ⟨L3, new3, v3⟩ := recursive_sim hrows h3 hg2 (by simp) ⟨l, hnl, hul⟩ (hrem2.trans hrem1)
      have hnr3 : t3.nodes[t.nodes.length + 1]? = some r := by
        rw [v3.others _ (by omega) (by omega)]
        exact hnr
      exact ih (hg2.next v3.steps) ((v3.mem_iff _).2 (Or.inl ⟨by simp, by omega⟩)) hnr3 hur v3.remaining (by omega)

end

end FF
