import Verif.Props.Grid
import Verif.Props.Binning
import Verif.Spec.Listed

/-!
# Property C119: the listed values of a column are used for that column
-/

set_option linter.unusedSectionVars false

namespace FF

open Spec

variable {K : Type} [Field K] [LinearOrder K] [IsStrictOrderedRing K] [FloorRing K] [NpFun K] {G : Type}

theorem discLookup_some {d : DiscDict K} {f : Nat} {u : DiscVals K} (h : discLookup d f = some u) :
    ∃ l, d = some l ∧ l.lookup f = some u := by
  unfold discLookup at h
  split at h
  · cases h
  · split at h
    · cases h
    · split_ifs at h
      cases h
      exact ⟨_, rfl, by assumption⟩

theorem takeE_mem {l : List K} {d : K} {is : List Nat} {out : List K} (h : takeE l d is = .ok out) : ∀ v ∈ out, v ∈ l := by
  obtain ⟨e1, e2⟩ := takeE_ok h
  intro v hv
  rw [e1] at hv
  obtain ⟨i, hi, rfl⟩ := List.mem_map.1 hv
  rw [List.getD_eq_getElem _ _ (e2 i hi)]
  exact List.getElem_mem _

/-- The edges of a column with DISCRETE bins are listed values of its position. -/
theorem MadeBy.discrete {R : Rng K G} {isCls : Bool} {data : List (List K)} {classes : List K} {minmax : Option (List K × List K)}
    {d : DiscDict K} {bt : Option BinType} {B f : Nat} {h : Hist K} (hm : MadeBy R isCls data classes minmax d bt B f h)
    (hbt : binTypeFor d bt data.length B f = .discrete) (v : K) (hv : v ∈ h.edges.getD []) :
    ∃ u, discLookup d f = some u ∧ v ∈ u.vals := by
  obtain ⟨fData, cur, lo, hi, nb, g, g', hcol, _, _, hpar, hinit⟩ := hm
  rw [hbt] at hinit
  unfold Hist.init makeEdges at hinit
  simp only [] at hinit
  cases hu : discLookup d f with
  | none => rw [hu] at hinit; cases hinit
  | some u =>
    rw [hu] at hinit
    refine ⟨u, rfl, ?_⟩
    simp only [] at hinit
    cases hb : discreteBin u nb with
    | error e => rw [hb] at hinit; cases hinit
    | ok es =>
      rw [hb] at hinit
      simp only [Except.ok.injEq, Prod.mk.injEq] at hinit
      rw [← hinit.1] at hv
      have hv : v ∈ es := hv
      unfold discreteBin at hb
      split_ifs at hb
      exact takeE_mem hb v hv

section
variable (R : Rng K G) (mem : Nat → Junk K)

/-- C119 fails, and this is what happens instead. With DISCRETE bins, or with automatic binning, a threshold on the column that is `j`-th among
those the node looks at is a value listed for column number `j` (with automatic binning: if that column has few enough listed values). -/
theorem C119_position_partial (A : TreeArgs K) (hA : ArgsOK A) (hmd : A.cfg.makeDiscrete = false) (t : Tree K G) (h : Fitted R mem A t)
    (id : Nat) (nd : Node K) (hn : NodeAt t id nd) (f : Nat) (hf : nd.splitFeature = some f) :
    ∃ j, nd.featIdcs[j]? = some f ∧ (A.cfg.binType = some .discrete → ListedFor A.disc j nd.splitValue) ∧
      (A.cfg.binType = none → ∀ u, discLookup A.disc j = some u → u.vals.length ≤ nd.idcs.length →
        (∀ B, nd.numBins = some B → u.vals.length ≤ B) → nd.splitValue ∈ u.vals) := by
  obtain ⟨dd, t0, hg⟩ := h.facts
  have hok := hg.nodes _ _ hn
  have hc : nd.computed = true := by
    by_contra hc
    have := (hok.fresh ((Bool.not_eq_true _).mp hc)).1
    rw [hf] at this
    cases this
  have hdd : dd = A.disc := by
    have := hg.disc
    rw [hg.start.cfg] at this
    simp only [hmd, ite_self, maybeDiscrete] at this
    exact (Except.ok.inj this).symm
  have hdisc : nd.discrete = A.disc := by rcases hok.disc_eq with e | e <;> rw [e]; exact hdd
  obtain ⟨B, j, hs, g, i, is, hB, hj, hi, hbin, hmake, hv⟩ := hg.split_edge hA hn hc hf
  rw [hdisc] at hbin hmake
  have hgood := makeHistograms_good hbin hmake
  have key : binTypeFor A.disc A.cfg.binType nd.idcs.length B j = .discrete →
      ∃ u, discLookup A.disc j = some u ∧ nd.splitValue ∈ u.vals := by
    intro hbt
    unfold edgesOf at hv
    cases hget : hs.hists[j]? with
    | none => rw [hget] at hv; cases hv
    | some hh =>
      rw [hget] at hv
      refine (hgood.made j hh hget).discrete ?_ _ hv
      rw [← hbt, hi]
      simp
  refine ⟨j, hj, fun hbt => ?_, fun hbt u hu hr hb => ?_⟩
  · obtain ⟨u, hu, hvu⟩ := key (by rw [hbt]; rfl)
    obtain ⟨l, e1, e2⟩ := discLookup_some hu
    exact ⟨l, u, e1, e2, hvu⟩
  · rw [if_neg (by rw [hbt]; simp)] at hB
    obtain ⟨u', hu', hvu⟩ := key (by
      rw [hbt]
      unfold binTypeFor chooseBinType
      simp only [hu, Option.map_some]
      rw [if_pos (le_min hr (hb B hB))])
    rw [hu] at hu'
    cases hu'
    exact hvu

/-- C119, the part that holds: if every node looks at all the columns of the data, the thresholds on a column with DISCRETE bins are values
listed for that column; so they are with automatic binning if the column has no more listed values than the node has rows and bins. -/
theorem C119_all_columns_partial (A : TreeArgs K) (hA : ArgsOK A) (hmd : A.cfg.makeDiscrete = false) (hsub : A.cfg.featSub = .none)
    (hcols : A.feats = none) (t : Tree K G) (h : Fitted R mem A t)
    (id : Nat) (nd : Node K) (hn : NodeAt t id nd) (f : Nat) (hf : nd.splitFeature = some f) :
    (A.cfg.binType = some .discrete → ListedFor A.disc f nd.splitValue) ∧
      (A.cfg.binType = none → ∀ u, discLookup A.disc f = some u → u.vals.length ≤ nd.idcs.length →
        (∀ B, nd.numBins = some B → u.vals.length ≤ B) → nd.splitValue ∈ u.vals) := by
  obtain ⟨j, hj, h1, h2⟩ := C119_position_partial R mem A hA hmd t h id nd hn f hf
  have hall := (C80_node_features R mem A t h id nd hn).2.2.2.1 hsub
  unfold TreeArgs.cols at hall
  rw [hcols] at hall
  rw [hall] at hj
  obtain ⟨hlt, hj⟩ := List.getElem?_eq_some_iff.1 hj
  simp at hj
  subst hj
  exact ⟨h1, h2⟩

end

/-- C119, a part: the renumbered dictionary that is computed for a node, and then thrown away, gives the `j`-th column of the node the values
listed for that column. -/
theorem C119_remap_partial (feats : List Nat) (l : List (Nat × DiscVals K)) (j f : Nat) (hj : feats[j]? = some f) :
    discLookup (some (remapDiscrete feats l)) j = discLookup (some l) f := by
  unfold remapDiscrete
  split_ifs with h0
  · rw [List.length_eq_zero_iff] at h0
    subst h0
    rfl
  · have key : ∀ (fs : List Nat) (n j : Nat) (f : Nat), fs[j]? = some f →
        ((fs.zipIdx n).map (fun p => (p.2, (l.lookup p.1).getD { isSet := false, vals := [] }))).lookup (n + j) =
          some ((l.lookup f).getD { isSet := false, vals := [] }) := by
      intro fs
      induction fs with
      | nil => intro n j f h; cases h
      | cons a fs ih =>
        intro n j f h
        rw [List.zipIdx_cons, List.map_cons, List.lookup_cons]
        cases j with
        | zero =>
          cases h
          simp
        | succ j =>
          have := ih (n + 1) j f h
          rw [show n + 1 + j = n + (j + 1) by omega] at this
          rw [show (n + (j + 1) == n) = false by simp]
          exact this
    have := key feats 0 j f hj
    rw [Nat.zero_add] at this
    unfold discLookup
    simp only [this]
    cases h : l.lookup f with
    | none => simp
    | some v => simp

/-- A tree with DISCRETE bins and values listed for both columns. -/
def exArgsListed : TreeArgs ℚ :=
  { exArgs with
    cfg := { cfgQ with binType := some .discrete, numBins := some 6 }
    disc := some [(0, { isSet := false, vals := [1 / 2, 3 / 2, 3, 4] }), (1, { isSet := false, vals := [1, 2, 5] })] }

/-- The same tree, but it may use column 1 only. -/
def exArgsListed1 : TreeArgs ℚ := { exArgsListed with feats := some [1] }

theorem exArgsListed_ok : ArgsOK exArgsListed := by
  refine ⟨Or.inl rfl, fun _ _ h => (by cases h), fun f u h _ => ?_, fun h => (by cases h), fun h => (by cases h)⟩
  obtain ⟨l, e1, e2⟩ := discLookup_some h
  cases e1
  by_cases h0 : f = 0
  · subst h0
    cases e2
    decide +kernel
  · by_cases h1 : f = 1
    · subst h1
      cases e2
      decide +kernel
    · rw [List.lookup_cons, beq_false_of_ne h0, List.lookup_cons, beq_false_of_ne h1] at e2
      cases e2

/-- A tree that uses both columns: its thresholds are listed for the columns they are on, as `C119_all_columns_partial` says. -/
example : ArgsOK exArgsListed ∧ exArgsListed.cfg.makeDiscrete = false ∧ exArgsListed.cfg.featSub = .none ∧ exArgsListed.feats = none ∧
    ∃ t, Fitted rngQ exMem exArgsListed t ∧
      ((t.nodes.map (fun nd : Node ℚ => (nd.splitFeature, nd.splitValue))).take 3 == [(some 0, 3 / 2), (none, 0), (some 0, 3)]) = true :=
  ⟨exArgsListed_ok, rfl, rfl, rfl, runTree_exists (glob := exGlob) (by decide +kernel)⟩

/-- C119 fails. A tree that may use column 1 only is split at 3/2 in column 1. That value is listed for column 0 but not for column 1. -/
theorem C119_refuted : ∃ t, Fitted rngQ exMem exArgsListed1 t ∧ ∃ nd : Node ℚ, NodeAt t 0 nd ∧ nd.splitFeature = some 1 ∧
    nd.splitValue = 3 / 2 ∧ ListedFor exArgsListed1.disc 0 (3 / 2) ∧ ¬ ListedFor exArgsListed1.disc 1 (3 / 2) := by
  obtain ⟨t, ht, hp⟩ := runTree_exists (R := rngQ) (mem := exMem) (A := exArgsListed1) (glob := exGlob)
    (p := fun t => (t.nodes[0]?.map (fun nd : Node ℚ => (nd.splitFeature, nd.splitValue))) == some (some 1, 3 / 2)) (by decide +kernel)
  rw [beq_iff_eq, Option.map_eq_some_iff] at hp
  obtain ⟨nd, hn, he⟩ := hp
  simp only [Prod.mk.injEq] at he
  refine ⟨t, ht, nd, hn, he.1, he.2, ⟨_, _, rfl, rfl, by decide +kernel⟩, ?_⟩
  rintro ⟨l, u, e1, e2, e3⟩
  cases e1
  cases e2
  revert e3
  decide +kernel

/-- The renumbered dictionary for a node that looks at columns 2 and 0. -/
example : (remapDiscrete [2, 0] [(0, { isSet := false, vals := [(7 : ℚ)] }), (2, { isSet := false, vals := [8, 9] })]).map
    (fun p => (p.1, p.2.vals)) = [(0, [8, 9]), (1, [7])] := by
  decide +kernel

end FF
