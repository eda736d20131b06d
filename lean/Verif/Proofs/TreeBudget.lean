import Verif.Proofs.TreeGrow
import Verif.Props.Solvers

/-!
# The budget of a tree with the bandit solver
-/

namespace FF

open Spec

set_option linter.unusedSectionVars false

variable {K : Type} [Field K] [LinearOrder K] [IsStrictOrderedRing K] [FloorRing K] [NpFun K] {G : Type}
variable {R : Rng K G} {mem : Nat → Junk K} {A : TreeArgs K} {t : Tree K G} {dd : DiscDict K} {t0 : Tree K G}

theorem TSteps.mab_budget (h0 : Start R A dd t0) (hd : maybeDiscrete t0.cfg.makeDiscrete A.data A.disc = .ok dd)
    (h : TSteps R mem t0 t) (hA : ArgsOK A) (hsol : A.cfg.solver = .mab) {b : Int} (hbud : A.budget = some b) (hb : 0 < b) :
    (t.numQueries : Int) < b + A.cols.length * (if A.cfg.withRep then A.rows.length else min A.cfg.batch A.rows.length : Nat) := by
  induction h with
  | refl =>
    rw [h0.numQueries]
    have : (0 : Int) ≤ A.cols.length * (if A.cfg.withRep then A.rows.length else min A.cfg.batch A.rows.length : Nat) :=
      Int.mul_nonneg (by omega) (by omega)
    omega
  | step hprev hs ih =>
    have hf := GrowFacts.of_steps h0 hd (.step hprev hs)
    have hf1 := GrowFacts.of_steps h0 hd hprev
    cases hs with
    | mark hl hn hc => exact ih
    | split hl hn hc hcomp hsp hred hneg himp hd hls hcol hne1 hne2 hcl hcr => exact ih
    | depth hd => exact ih
    | solve hl hn hc hb' hcomp hsp hnb hd' hls hs =>
      rename_i t1 id leaf glob glob' nb data labels r q g'
      obtain ⟨e1, e2, e3, e4, e5, e6, e7, e8, e9, e10, e11, e12, e13, e14, e15, e16, e17, e18, e19⟩ :=
        nodeRecord_static { leaf with numBins := nb } r q
      have hok1 := hf1.nodes _ _ hn
      obtain ⟨nd', hnd', hleaf⟩ := hf1.sim.leaf _ hl
      rw [hn] at hnd'
      obtain rfl := Option.some.inj hnd'
      have hdat := hok1.open_data hleaf.left_eq
      rw [hd'] at hdat
      obtain rfl := Option.some.inj hdat
      have hcan := constraints_true hok1.nData_eq (hok1.open_labels hleaf.left_eq) hc
      have hrem := hprev.remaining.2
      rw [h0.remaining, hbud, h0.numQueries] at hrem
      simp only [Option.map_some, Nat.cast_zero, Int.sub_zero] at hrem
      have hpos := hb' _ hrem
      rw [hrem] at hs
      have hcfg := hf1.cfg_eq
      rw [nodeSolve_cfg hcfg] at hs
      unfold nodeSolve at hs
      rw [hsol] at hs
      simp only [] at hs
      split at hs
      · cases hs
      rename_i out hout
      simp only [Except.ok.injEq, Prod.mk.injEq] at hs
      obtain ⟨_, hq, _⟩ := hs
      obtain ⟨row, rest, B, _, _, hdata, hB, _⟩ := solveMab_parts hout
      have hbin := hf.binning hA (id := id) (getElem?_set_eq hn) e12 B (Or.inr (e19.trans hB))
      have hbin' : BinningOK leaf.minmax leaf.discrete A.cfg.binType B := by
        simp only [e17, e18] at hbin
        exact hbin
      rw [hdata, hB] at hout
      have hc20 := C20_budget R _ _ _ row rest _ _ _ _ _ _ _ _ _ _ _ out hA.crit hbin' hpos hout
      have hlen : (row :: rest).length = leaf.idcs.length := by rw [← hdata]; simp [subRows]
      have hrow : row.length = leaf.featIdcs.length := by
        have : row ∈ subRows A.data leaf.idcs leaf.featIdcs := by rw [hdata]; exact List.mem_cons_self
        obtain ⟨i, _, rfl⟩ := List.mem_map.1 this
        simp
      have hl1 : leaf.idcs.length ≤ A.rows.length := (hf1.rows_sublist hn).length_le
      have hl2 : leaf.featIdcs.length ≤ A.cols.length := hok1.feats_num.le
      rw [hlen, hrow] at hc20
      simp only []
      have hmul : leaf.featIdcs.length * (if A.cfg.withRep then leaf.idcs.length else min A.cfg.batch leaf.idcs.length) ≤
          A.cols.length * (if A.cfg.withRep then A.rows.length else min A.cfg.batch A.rows.length) := by
        apply Nat.mul_le_mul hl2
        split_ifs
        · exact hl1
        · omega
      have hmul' : (leaf.featIdcs.length : Int) * ((if A.cfg.withRep then leaf.idcs.length else min A.cfg.batch leaf.idcs.length : Nat) : Int) ≤
          (A.cols.length : Int) * ((if A.cfg.withRep then A.rows.length else min A.cfg.batch A.rows.length : Nat) : Int) := by
        exact_mod_cast hmul
      rw [← hq]
      push_cast at hc20 hmul' ⊢
      omega

end FF
