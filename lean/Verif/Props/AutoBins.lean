import Verif.Props.Grid

/-!
# Automatic binning: the exact number of bins (C79) and the thresholds of trees and forests (C89)
-/

set_option linter.unusedSectionVars false

namespace FF

open Spec

variable {K : Type} [Field K] [LinearOrder K] [IsStrictOrderedRing K] [FloorRing K] [NpFun K] {G : Type}

/-! ### C79 -/

/-- The number of bins left behind by the features before feature `f`: that of the last one with few listed values, or the configured one if
there is none. -/
def BinsLeft (N : Nat) (d : DiscDict K) (B f nb : Nat) : Prop :=
  (nb = B ∧ ∀ f' < f, ∀ u, ¬ FewListed N d B f' u) ∨
    ∃ f' < f, ∃ u, FewListed N d B f' u ∧ nb = u.vals.length ∧ ∀ f'' < f, f' < f'' → ∀ u, ¬ FewListed N d B f'' u

theorem makeHistLoop_left {R : Rng K G} {isCls : Bool} {data : List (List K)} {classes : List K} {minmax : Option (List K × List K)}
    {d : DiscDict K} {B : Nat} {g : G} (hlt : B < data.length) :
    ∀ (n : Nat) (st : Hists K G),
    makeHistLoop R isCls data classes minmax d none B (List.range n)
      { hists := [], notCons := [], cons := [], numBins := B, g := g } = .ok st →
    st.hists.length = n ∧ BinsLeft data.length d B n st.numBins ∧
      ∀ f h, st.hists[f]? = some h → ∃ nb, AutoEdges data minmax d B nb f h ∧ BinsLeft data.length d B f nb := by
  intro n
  induction n with
  | zero =>
    intro st h
    cases h
    exact ⟨rfl, Or.inl ⟨rfl, fun f' h => by omega⟩, fun f h hf => by simp at hf⟩
  | succ n ih =>
    intro st h
    rw [List.range_succ, makeHistLoop_append] at h
    cases h1 : makeHistLoop R isCls data classes minmax d none B (List.range n)
        { hists := [], notCons := [], cons := [], numBins := B, g := g } with
    | error e => rw [h1] at h; cases h
    | ok st1 =>
      rw [h1] at h
      obtain ⟨i1, i2, i3⟩ := ih st1 h1
      simp only [makeHistLoop] at h
      cases h2 : makeHistStep R isCls data classes minmax d none B n st1 with
      | error e => rw [h2] at h; cases h
      | ok st2 =>
        rw [h2] at h
        cases h
        obtain ⟨hh, e1, e2, e3, e4⟩ := makeHistStep_auto h2
        refine ⟨by rw [e1, List.length_append, i1]; rfl, ?_, fun f h hf => ?_⟩
        · by_cases hfew : ∃ u, FewListed data.length d B n u
          · obtain ⟨u, hu⟩ := hfew
            exact Or.inr ⟨n, by omega, u, hu, e3 u hu, fun f'' h1 h2 => by omega⟩
          · push Not at hfew
            rw [e4 hfew hlt]
            rcases i2 with ⟨j1, j2⟩ | ⟨f', j1, u, j2, j3, j4⟩
            · refine Or.inl ⟨j1, fun f' hf' => ?_⟩
              rcases Nat.lt_succ_iff_lt_or_eq.1 hf' with h | rfl
              · exact j2 f' h
              · exact hfew
            · refine Or.inr ⟨f', by omega, u, j2, j3, fun f'' hf'' hlt' => ?_⟩
              rcases Nat.lt_succ_iff_lt_or_eq.1 hf'' with h | rfl
              · exact j4 f'' h hlt'
              · exact hfew
        · rw [e1] at hf
          rcases Nat.lt_or_ge f n with hlt | hge
          · rw [List.getElem?_append_left (by omega)] at hf
            exact i3 f h hf
          · rw [List.getElem?_append_right (by omega), i1] at hf
            have : f = n := by
              have := (List.getElem?_eq_some_iff.1 hf).1
              simp at this
              omega
            subst this
            simp only [Nat.sub_self, List.getElem?_cons_zero, Option.some.injEq] at hf
            subst hf
            exact ⟨_, e2, i2⟩

/-- C79, what happens instead: a feature with equally spaced edges gets as many of them as the last feature before it with few listed values
has such values, and the configured number only if there is no such feature. -/
theorem C79_leak_partial (R : Rng K G) (g : G) (isCls : Bool) (row : List K) (rest : List (List K)) (labels : List K)
    (minmax : Option (List K × List K)) (d : DiscDict K) (B : Nat) (hs : Hists K G) (hlt : B < rest.length + 1)
    (h : makeHistograms R g isCls (row :: rest) labels minmax d none B = .ok hs) :
    hs.hists.length = row.length ∧
    ∀ f h, hs.hists[f]? = some h → ∃ nb, AutoEdges (row :: rest) minmax d B nb f h ∧ BinsLeft (rest.length + 1) d B f nb := by
  obtain ⟨h1, _, h2⟩ := makeHistLoop_left (by exact hlt) _ _ h
  exact ⟨h1, h2⟩

/-- The hypotheses are met: column 0 is listed with two values, column 1 gets two equally spaced edges instead of three. -/
example : (makeHistograms rngQ 0 false [[0, 1], [1, 9], [0, 3], [1, 5]] [1, 2, 3, (4 : ℚ)] none
      (some [(0, { isSet := false, vals := [0, 1] })]) none 3).map (fun hs => hs.hists.map (fun h => h.edges)) = .ok [some [0, 1], some [1, 9]] ∧
    BinsLeft 4 (some [(0, { isSet := false, vals := [0, (1 : ℚ)] })]) 3 1 2 :=
  ⟨C79_refuted, Or.inr ⟨0, by omega, _, ⟨rfl, by decide, by decide⟩, rfl, fun f h1 h2 => by omega⟩⟩

/-! ### C89 for automatic binning -/

/-- The thresholds a node may use for column `f` with automatic binning and no listed values: the values of the column in the rows of the node,
if there are no more rows than bins, and otherwise equally spaced values between two bounds for which `range` holds. -/
def AllowedAuto (useLog : Bool) (numBins : Option Nat) (data : List (List K)) (rows : List Nat) (f : Nat) (range : K → K → Prop) (v : K) : Prop :=
  ∃ B, BinsAt useLog numBins rows.length B ∧
    if rows.length ≤ B then ∃ i ∈ rows, cellOf data i f = v else ∃ lo hi, Spaced B lo hi v ∧ range lo hi

section
variable {R : Rng K G} {mem : Nat → Junk K} {A : TreeArgs K} {dd : DiscDict K} {t0 t : Tree K G}

theorem cell_at {data : List (List K)} {feats : List Nat} {j f : Nat} (hj : feats[j]? = some f) (k : Nat) :
    (feats.map (cellOf data k)).getD j 0 = cellOf data k f := by
  rw [List.getD_eq_getElem?_getD, List.getElem?_map, hj]
  rfl

theorem col_at {data : List (List K)} {feats : List Nat} {j f : Nat} (hj : feats[j]? = some f) (rows : List Nat) :
    (rows.map (fun i => feats.map (cellOf data i))).map (fun r => r.getD j 0) = rows.map (fun i => cellOf data i f) := by
  rw [List.map_map]
  apply List.map_congr_left
  intro k _
  exact cell_at hj k

/-- The range of a column in the table of a node is the range `TreeRange` of the column. -/
theorem GrowFacts.range_at (h : GrowFacts R mem A dd t0 t) {id : Nat} {nd : Node K} (hn : NodeAt t id nd) {j f : Nat}
    (hj : nd.featIdcs[j]? = some f) {lo hi : K}
    (hr : RangeOf (nd.idcs.map (fun i => nd.featIdcs.map (cellOf A.data i))) nd.minmax j lo hi) : TreeRange A nd.idcs f lo hi := by
  have hmm := (h.nodes _ _ hn).minmax_eq
  have ecfg : t.cfg.minmax = A.cfg.minmax := by rw [h.cfg_eq]
  rw [ecfg] at hmm
  unfold TreeRange
  split
  · rename_i hmm0
    rw [hmm0] at hmm
    rw [nodeMinmax_none hmm] at hr
    obtain ⟨⟨a1, a2⟩, ⟨a3, a4⟩⟩ := hr
    rw [col_at hj] at a1 a2 a3 a4
    obtain ⟨i, hi1, hi2⟩ := List.mem_map.1 a1
    obtain ⟨k, hk1, hk2⟩ := List.mem_map.1 a3
    exact ⟨⟨i, hi1, hi2⟩, fun i hi => a2 _ (List.mem_map.2 ⟨i, hi, rfl⟩), ⟨k, hk1, hk2⟩, fun i hi => a4 _ (List.mem_map.2 ⟨i, hi, rfl⟩)⟩
  · rename_i mins maxs hmm0
    rw [hmm0] at hmm
    unfold nodeMinmax at hmm
    simp only [] at hmm
    split at hmm
    · rename_i a b ha hb
      rw [← Except.ok.inj hmm] at hr
      have key : ∀ {src a : List K} {v : K}, takeE src 0 nd.featIdcs = .ok a → a[j]? = some v → src[f]? = some v := by
        intro src a v ha hav
        obtain ⟨e1, e2⟩ := takeE_ok ha
        have hfm : f ∈ nd.featIdcs := List.mem_of_getElem? hj
        rw [e1, List.getElem?_map, hj] at hav
        have := e2 f hfm
        rw [List.getElem?_eq_getElem this]
        simp only [Option.map_some, Option.some.injEq] at hav
        rw [List.getD_eq_getElem _ _ this] at hav
        rw [hav]
      exact ⟨key ha hr.1, key hb hr.2⟩
    · cases hmm

end

/-- C89 for a tree with automatic binning and no listed values. -/
theorem C89_auto_tree (R : Rng K G) (mem : Nat → Junk K) (A : TreeArgs K) (hA : ArgsOK A) (hbt : A.cfg.binType = none)
    (hmd : A.cfg.makeDiscrete = false) (hd : A.disc = none) (t : Tree K G) (h : Fitted R mem A t) (id : Nat)
    (nd : Node K) (hn : NodeAt t id nd) (f : Nat) (hf : nd.splitFeature = some f) :
    AllowedAuto A.cfg.useLog A.cfg.numBins A.data nd.idcs f (TreeRange A nd.idcs f) nd.splitValue := by
  obtain ⟨dd, t0, hg⟩ := h.facts
  have hok := hg.nodes _ _ hn
  have hc : nd.computed = true := by
    by_contra hc
    have := (hok.fresh ((Bool.not_eq_true _).mp hc)).1
    rw [hf] at this
    cases this
  have hdd : dd = none := by
    have := hg.disc
    rw [hg.start.cfg] at this
    simp only [hmd, ite_self, maybeDiscrete] at this
    rw [← Except.ok.inj this, hd]
  have hdisc : nd.discrete = none := by
    rcases hok.disc_eq with e | e <;> rw [e]
    · exact hd
    · exact hdd
  obtain ⟨B, j, hs, g, i, is, hB, hj, hi, hbin, hmake, hv⟩ := hg.split_edge hA hn hc hf
  have hrows : nd.featIdcs.map (cellOf A.data i) :: is.map (fun i => nd.featIdcs.map (cellOf A.data i)) =
      nd.idcs.map (fun i => nd.featIdcs.map (cellOf A.data i)) := by rw [hi]; rfl
  have hlen : nd.idcs.length = is.length + 1 := by rw [hi]; rfl
  rw [if_neg (by rw [hbt]; simp)] at hB
  rw [hbt, hdisc] at hmake
  rw [hbt] at hbin
  have hfew : ∀ (N f' : Nat) (u : DiscVals K), ¬ FewListed N (none : DiscDict K) B f' u := by
    rintro N f' u ⟨h, _⟩
    cases h
  obtain ⟨hl, he⟩ := C79_auto_bins_partial R g _ _ _ _ _ _ _ _ hmake
  unfold edgesOf at hv
  cases hget : hs.hists[j]? with
  | none => rw [hget] at hv; cases hv
  | some hh =>
    rw [hget] at hv
    have hv : nd.splitValue ∈ hh.edges.getD [] := hv
    obtain ⟨nb, ha, hnb⟩ := he j hh hget
    rw [hrows] at ha
    refine ⟨B, hg.bins_at hn hc hB, ?_⟩
    split_ifs with hle
    · obtain ⟨e, e1, _, e3⟩ := ha.all (hfew _ _) (by rw [List.length_map]; exact hle)
      rw [e1] at hv
      have hv := (e3 _).1 hv
      rw [col_at hj] at hv
      obtain ⟨k, hk1, hk2⟩ := List.mem_map.1 hv
      exact ⟨k, hk1, hk2⟩
    · push Not at hle
      have hnb := hnb (by rw [List.length_map, ← hlen]; exact hle) (fun f' _ => hfew _ _)
      obtain ⟨lo, hi', r1, r2, r3⟩ := ha.spaced (hfew _ _) (by rw [List.length_map]; exact hle)
      have hne : lo ≠ hi' := by
        intro e
        rw [r2 e] at hv
        cases hv
      obtain ⟨e, q1, q2, q3⟩ := r3 hne
      rw [q1] at hv
      obtain ⟨b, hb, hb2⟩ := List.getElem_of_mem (show nd.splitValue ∈ e from hv)
      have hB1 := (hbin.auto_bins rfl).1
      rw [hnb] at q2 q3
      refine ⟨lo, hi', ⟨lt_of_le_of_ne ?_ hne, b, by omega, ?_⟩, hg.range_at hn hj r1⟩
      · unfold RangeOf at r1
        split at r1
        · exact r1.1.2 _ r1.2.1
        · rename_i mins maxs hm
          exact hbin.minmax_le mins maxs hm j lo hi' r1.1 r1.2
      · rw [← hb2, q3 hB1 b hb]
        ring

/-- A forest without `make_discrete` has no listed values. -/
theorem ForestObj.no_discrete {R : Rng K G} {cfg : ForestCfg K} {budget : Option Int} {f : Forest K G} (h : ForestObj R cfg budget f)
    (hmd : cfg.makeDiscrete = false) : f.discrete = none ∧ f.cfg.makeDiscrete = false := by
  induction h with
  | new h =>
    unfold Forest.init at h
    simp only [] at h
    split_ifs at h with h1 h2
    all_goals
      cases h
      exact ⟨rfl, by simpa using hmd⟩
  | fit _ hf ih =>
    obtain ⟨dat, f0, w0, hs, hl⟩ := Forest_fit_start hf
    obtain ⟨l, hr⟩ := forestLoop_run hl
    obtain ⟨i1, i2⟩ := ih
    have hd := hs.disc
    rw [i1, i2] at hd
    have hd := Except.ok.inj hd
    rw [hr.same]
    refine ⟨hd.symm, ?_⟩
    rw [hs.eq]
    exact i2
  | predict _ hf ih =>
    obtain ⟨ts, rfl, h2⟩ := Forest_predict_same hf
    exact ih
  | oob _ hf ih =>
    obtain ⟨ts, rfl, h2⟩ := Forest_oob_same hf
    exact ih
  | mdi _ hf ih =>
    rw [Forest_mdi_same hf]
    exact ih
  | reset b _ ih => exact ih

/-- C89 for a forest with automatic binning (and without `make_discrete`, with which such a forest cannot be trained, see C74): every
threshold of every tree is a value of the column in the rows of the node, if there are no more rows than bins, and a point of an equally
spaced grid otherwise. -/
theorem C89_auto_forest (R : Rng K G) (mem : Nat → Nat → Junk K) (cfg : ForestCfg K) (budget : Option Int) (f f' : Forest K G)
    (hobj : ForestObj R cfg budget f) (w w' : World K G) (data : Option (List (List K))) (labels : Option Nat)
    (hfit : Forest.fit R mem f w data labels = .ok (f', w')) (hbt : cfg.binType = none) (hmd : cfg.makeDiscrete = false)
    (hB : cfg.useLog = false → cfg.numBins ≠ some 1)
    (t : Tree K G) (ht : t ∈ f'.trees) (id : Nat) (nd : Node K) (hn : NodeAt t id nd) (j : Nat) (hj : nd.splitFeature = some j) :
    AllowedAuto cfg.useLog cfg.numBins (trainData f data) nd.idcs j
      (Extremes (trainData f data) (if cfg.precompMinmax then List.range (trainData f data).length else nd.idcs) j) nd.splitValue := by
  obtain ⟨i, hi⟩ := List.mem_iff_getElem?.1 ht
  obtain ⟨ms, _, hne, hm⟩ := Forest_fit_made hfit
  obtain ⟨m, _, h2, _⟩ := hm i t hi
  have hcfg := (Forest_fit_same hfit).1.trans hobj.facts.1
  have hcfg0 := hobj.facts.1
  have hmm : f'.minmax = if cfg.precompMinmax then some (colMinMax (trainData f data) ((trainData f data).getD 0 []).length) else none := by
    obtain ⟨dat, f0, w0, hs, hl⟩ := Forest_fit_start hfit
    obtain ⟨l, hr⟩ := forestLoop_run hl
    rw [hr.same, hs.eq]
    have h3 := hobj.facts2.2.1
    have e : f.cfg.precompMinmax = cfg.precompMinmax := by rw [hcfg0]
    rw [e] at h3
    simp only [e, hs.dat_eq]
    cases hp : cfg.precompMinmax with
    | true => rfl
    | false => simpa [hp] using h3 hp
  have c1 : m.args.cfg.binType = cfg.binType := by rw [h2.cfg]; unfold Forest.treeCfg; rw [hcfg]
  have c2 : m.args.cfg.useLog = cfg.useLog := by rw [h2.cfg]; unfold Forest.treeCfg; rw [hcfg]
  have c3 : m.args.cfg.numBins = cfg.numBins := by rw [h2.cfg]; unfold Forest.treeCfg; rw [hcfg]
  have c4 : m.args.cfg.minmax = f'.minmax := by rw [h2.cfg]; rfl
  have hdisc : m.args.disc = none := h2.disc.trans (ForestObj.no_discrete (.fit hobj hfit) hmd).1
  have hA : ArgsOK m.args := by
    refine ⟨?_, ?_, ?_, fun h => absurd ((c1.trans hbt).symm.trans h) (by simp), fun h => ⟨by rw [c2, c3]; exact hB, ?_⟩⟩
    · rw [h2.cfg]
      unfold Forest.treeCfg CritFits
      simp only []
      cases f'.cfg.isCls <;> simp
    · intro mins maxs hm' k lo hi hlo hhi
      rw [c4, hmm] at hm'
      split_ifs at hm'
      exact (colMinMax_le hne (Option.some.inj hm') k hlo hhi).1
    · intro k u hu
      rw [hdisc] at hu
      cases hu
    · intro k u hu
      rw [hdisc] at hu
      cases hu
  obtain ⟨dd, t00, hf⟩ := h2.fitted.facts
  have hc := h2.after.cache hf.cache
  have hlt := (List.getElem?_eq_some_iff.1 hn).1
  rw [hc.len] at hlt
  have h0 : m.tree.nodes[id]? = some m.tree.nodes[id] := List.getElem?_eq_getElem hlt
  have he := (hc.nodes _ _ _ h0 hn).eq
  have e1 : nd.splitFeature = (m.tree.nodes[id]).splitFeature := by rw [he]
  have e2 : nd.idcs = (m.tree.nodes[id]).idcs := by rw [he]
  have e3 : nd.splitValue = (m.tree.nodes[id]).splitValue := by rw [he]
  have key := C89_auto_tree R (mem i) m.args hA (c1.trans hbt) (by rw [h2.cfg]; rfl) hdisc m.tree h2.fitted id _ h0 j (e1 ▸ hj)
  rw [← e2, ← e3, c2, c3, h2.data_eq] at key
  obtain ⟨B, k1, k2⟩ := key
  refine ⟨B, k1, ?_⟩
  split_ifs at k2 with hle
  · rw [if_pos hle]
    exact k2
  · rw [if_neg hle]
    obtain ⟨lo, hi', k2, k3⟩ := k2
    refine ⟨lo, hi', k2, ?_⟩
    unfold TreeRange at k3
    rw [c4, hmm, h2.data_eq] at k3
    cases hp : cfg.precompMinmax with
    | true =>
      rw [if_pos rfl]
      rw [hp, if_pos rfl] at k3
      exact colMinMax_extremes hne k3.1 k3.2
    | false =>
      rw [if_neg (by simp)]
      rw [hp, if_neg (by simp)] at k3
      exact k3

/-- A forest with automatic binning, four bins and precomputed minima and maxima. -/
def fcfgAuto4 : ForestCfg ℚ := { fcfgQ with binType := none, numBins := some 4, precompMinmax := true }

/-- The root of the second tree has six rows and is split at 10/3, a point of the grid 0, 5/3, 10/3, 5. Its right child has three rows and is
split at 4, a value of one of them. -/
example : ((runForest rngQ exMems exWorld fcfgAuto4 exData 0 none).toOption.any (fun p =>
    p.1.trees.map (fun t => t.nodes.map (fun nd => (nd.idcs, nd.splitFeature, nd.splitValue))) ==
      [[([3, 4, 1, 0, 1, 4], some 0, 0), ([0], none, 0), ([3, 4, 1, 1, 4], some 1, 1), ([3], none, 0), ([4, 1, 1, 4], none, 0)],
        [([4, 5, 2, 1, 2, 5], some 0, 10 / 3), ([2, 1, 2], none, 0), ([4, 5, 5], some 0, 4), ([4], none, 0), ([5, 5], none, 0)]])) = true := by
  decide +kernel

end FF
