import Verif.Props.Utils
import Verif.Props.Tree2

/-!
# Automatic binning (C79) and the features of a node (C80)
-/

set_option linter.unusedSectionVars false

namespace FF

open Spec

variable {K : Type} [Field K] [LinearOrder K] [IsStrictOrderedRing K] [FloorRing K] [NpFun K] {G : Type}

/-! ### C79 -/

/-- Feature `f` is listed as discrete with values `u`, no more of them than rows and than bins. -/
def FewListed (N : Nat) (d : DiscDict K) (B f : Nat) (u : DiscVals K) : Prop :=
  discLookup d f = some u ∧ u.vals.length ≤ N ∧ u.vals.length ≤ B

/-- The range of column `f`: the precomputed one, or the least and the largest value. -/
def RangeOf (data : List (List K)) (minmax : Option (List K × List K)) (f : Nat) (lo hi : K) : Prop :=
  match minmax with
  | none => (lo ∈ data.map (fun r => r.getD f 0) ∧ ∀ x ∈ data.map (fun r => r.getD f 0), lo ≤ x) ∧
      (hi ∈ data.map (fun r => r.getD f 0) ∧ ∀ x ∈ data.map (fun r => r.getD f 0), x ≤ hi)
  | some (mins, maxs) => mins[f]? = some lo ∧ maxs[f]? = some hi

/-- The bin edges a feature should get: its listed values, or all its values, or equally spaced values; `nb` is the number of equally
spaced values. -/
structure AutoEdges (data : List (List K)) (minmax : Option (List K × List K)) (d : DiscDict K) (B nb f : Nat) (h : Hist K) : Prop where
  listed : ∀ u, FewListed data.length d B f u → h.edges = some u.vals
  all : (∀ u, ¬ FewListed data.length d B f u) → data.length ≤ B →
    ∃ e, h.edges = some e ∧ e.Pairwise (· < ·) ∧ ∀ x, x ∈ e ↔ x ∈ data.map (fun r => r.getD f 0)
  spaced : (∀ u, ¬ FewListed data.length d B f u) → B < data.length →
    ∃ lo hi, RangeOf data minmax f lo hi ∧ (lo = hi → h.edges = none) ∧
      (lo ≠ hi → ∃ e, h.edges = some e ∧ e.length = nb ∧
        (nb ≠ 1 → ∀ b (hb : b < e.length), e[b] = lo + (hi - lo) * (b : K) / ((nb : K) - 1)))

theorem npMin_mem {l : List K} {lo : K} (h : npMin l = some lo) : lo ∈ l := by
  cases l with
  | nil => cases h
  | cons x xs =>
    simp only [npMin, Option.some.injEq] at h
    have a : ∀ (ys : List K) (a : K), ys.foldl min a = a ∨ ys.foldl min a ∈ ys := by
      intro ys
      induction ys with
      | nil => intro a; exact Or.inl rfl
      | cons y ys ih =>
        intro a
        rw [List.foldl_cons]
        rcases ih (min a y) with h | h
        · rcases min_choice a y with h' | h'
          · left; rw [h, h']
          · right; rw [h, h']; exact List.mem_cons_self
        · right; exact List.mem_cons_of_mem _ h
    rcases a xs x with h' | h'
    · rw [← h, h']; exact List.mem_cons_self
    · rw [← h]; exact List.mem_cons_of_mem _ h'

theorem npMax_mem {l : List K} {hi : K} (h : npMax l = some hi) : hi ∈ l := by
  cases l with
  | nil => cases h
  | cons x xs =>
    simp only [npMax, Option.some.injEq] at h
    have a : ∀ (ys : List K) (a : K), ys.foldl max a = a ∨ ys.foldl max a ∈ ys := by
      intro ys
      induction ys with
      | nil => intro a; exact Or.inl rfl
      | cons y ys ih =>
        intro a
        rw [List.foldl_cons]
        rcases ih (max a y) with h | h
        · rcases max_choice a y with h' | h'
          · left; rw [h, h']
          · right; rw [h, h']; exact List.mem_cons_self
        · right; exact List.mem_cons_of_mem _ h
    rcases a xs x with h' | h'
    · rw [← h, h']; exact List.mem_cons_self
    · rw [← h]; exact List.mem_cons_of_mem _ h'

theorem discreteBin_all {u : DiscVals K} {es : List K} (h : discreteBin u u.vals.length = .ok es) : es = u.vals ∧ u.isSet = false := by
  unfold discreteBin at h
  split_ifs at h with h0 hs
  have h1 := (takeE_ok h).1
  refine ⟨?_, by simpa using hs⟩
  rw [h1, List.map_map]
  apply List.ext_getElem (by simp)
  intro i h2 h3
  simp only [List.getElem_map, List.getElem_range, Function.comp]
  rw [Nat.div_self (by omega), one_mul, List.getD_eq_getElem _ _ h3]

/-- One pass of the loop, without a bin type. -/
theorem makeHistStep_auto {R : Rng K G} {isCls : Bool} {data : List (List K)} {classes : List K} {minmax : Option (List K × List K)}
    {d : DiscDict K} {B f : Nat} {st st' : Hists K G} (h : makeHistStep R isCls data classes minmax d none B f st = .ok st') :
    ∃ hh, st'.hists = st.hists ++ [hh] ∧ AutoEdges data minmax d B st.numBins f hh ∧
      (∀ u, FewListed data.length d B f u → st'.numBins = u.vals.length) ∧
      ((∀ u, ¬ FewListed data.length d B f u) → B < data.length → st'.numBins = st.numBins) := by
  rw [makeHistStep_eq] at h
  cases hcol : colE data f with
  | error e => rw [hcol] at h; cases h
  | ok fData =>
    rw [hcol] at h
    simp only [] at h
    have hfd := (colE_ok hcol).1
    cases hpar : binParams data minmax d (discLookup d f) (binTypeFor d none data.length B f) f fData st.numBins with
    | error e => rw [hpar] at h; cases h
    | ok par =>
      obtain ⟨lo, hi, nb⟩ := par
      rw [hpar] at h
      simp only [] at h
      cases hinit : Hist.init R st.g isCls f (discLookup d f) fData classes nb lo hi (binTypeFor d none data.length B f) with
      | error e => rw [hinit] at h; cases h
      | ok hh' =>
        obtain ⟨hh, g'⟩ := hh'
        rw [hinit] at h
        cases h
        unfold Hist.init at hinit
        cases hme : makeEdges R st.g (binTypeFor d none data.length B f) (discLookup d f) fData nb lo hi with
        | error e => rw [hme] at hinit; cases hinit
        | ok me =>
          obtain ⟨edges, nb', g''⟩ := me
          rw [hme] at hinit
          cases hinit
          refine ⟨_, rfl, ?_, ?_⟩
          · -- the type
            by_cases hfew : ∃ u, FewListed data.length d B f u
            · obtain ⟨u, hu, h1, h2⟩ := hfew
              have hbt : binTypeFor d none data.length B f = .discrete := by
                unfold binTypeFor chooseBinType
                rw [hu]
                simp only [Option.map_some]
                rw [if_pos (by omega)]
              rw [hbt, hu] at hpar hme
              unfold binParams at hpar
              simp only [] at hpar
              split at hpar
              · cases hpar
              · rename_i h'; cases h'
              · rename_i u' _ hu'
                cases hu'
                cases hpar
                unfold makeEdges at hme
                simp only [] at hme
                cases hdb : discreteBin u u.vals.length with
                | error e => rw [hdb] at hme; cases hme
                | ok es =>
                  rw [hdb] at hme
                  cases hme
                  refine ⟨fun u' hu' => ?_, fun hno => absurd ⟨hu, h1, h2⟩ (hno u), fun hno => absurd ⟨hu, h1, h2⟩ (hno u)⟩
                  have : u' = u := Option.some.inj (hu'.1.symm.trans hu)
                  rw [this, ← (discreteBin_all hdb).1]
                  rfl
            · push Not at hfew
              have hnd : ∀ u, discLookup d f = some u → ¬ (u.vals.length ≤ min data.length B) := fun u hu hle =>
                hfew u ⟨hu, by omega, by omega⟩
              by_cases hNB : data.length ≤ B
              · have hbt : binTypeFor d none data.length B f = .identity := by
                  unfold binTypeFor chooseBinType
                  cases hdl : discLookup d f with
                  | none => simp [hNB]
                  | some u =>
                    simp only [Option.map_some]
                    rw [if_neg (hnd u hdl), if_pos hNB]
                rw [hbt] at hme
                unfold makeEdges at hme
                cases hme
                refine ⟨fun u hu => absurd hu (hfew u), fun _ _ => ⟨_, rfl, ?_, fun x => ?_⟩, fun _ h => absurd h (by omega)⟩
                · exact ((npUnique_sorted fData).and (npUnique_nodup fData)).imp (fun h => lt_of_le_of_ne h.1 h.2)
                · rw [mem_npUnique, hfd]
              · have hbt : binTypeFor d none data.length B f = .linear := by
                  unfold binTypeFor chooseBinType
                  cases hdl : discLookup d f with
                  | none => simp [hNB]
                  | some u =>
                    simp only [Option.map_some]
                    rw [if_neg (hnd u hdl), if_neg hNB]
                rw [hbt] at hme hpar
                refine ⟨fun u hu => absurd hu (hfew u), fun _ h => absurd h hNB, fun _ _ => ⟨lo, hi, ?_, ?_, ?_⟩⟩
                · unfold binParams at hpar
                  simp only [] at hpar
                  unfold RangeOf
                  split at hpar
                  · split at hpar
                    · next h1 h2 =>
                      cases hpar
                      rw [hfd] at h1 h2
                      exact ⟨⟨npMin_mem h1, fun x hx => npMin_le h1 hx⟩, ⟨npMax_mem h2, fun x hx => le_npMax h2 hx⟩⟩
                    · cases hpar
                  · split at hpar
                    · next h1 h2 =>
                      cases hpar
                      exact ⟨h1, h2⟩
                    · cases hpar
                · intro hlh
                  unfold makeEdges at hme
                  simp only [] at hme
                  rw [if_pos hlh] at hme
                  cases hme
                  rfl
                · intro hlh
                  have hnb : nb = st.numBins := by
                    unfold binParams at hpar
                    simp only [] at hpar
                    split at hpar <;> split at hpar <;> simp_all
                  unfold makeEdges at hme
                  simp only [] at hme
                  rw [if_neg hlh] at hme
                  cases hme
                  subst hnb
                  refine ⟨_, rfl, length_linspace _ _ _, fun h1 b hb => ?_⟩
                  simp only [linspace, if_neg h1, List.getElem_map, List.getElem_range]
                  ring
          · constructor
            · rintro u ⟨hu, h1, h2⟩
              have hbt : binTypeFor d none data.length B f = .discrete := by
                unfold binTypeFor chooseBinType
                rw [hu]
                simp only [Option.map_some]
                rw [if_pos (by omega)]
              rw [hbt, hu] at hpar
              unfold binParams at hpar
              simp only [] at hpar
              split at hpar
              · cases hpar
              · rename_i h'; cases h'
              · rename_i u' _ hu'
                cases hu'
                cases hpar
                rfl
            · intro hno hlt
              have hnd : ∀ u, discLookup d f = some u → ¬ (u.vals.length ≤ min data.length B) := fun u hu hle =>
                hno u ⟨hu, by omega, by omega⟩
              have hbt : binTypeFor d none data.length B f = .linear := by
                unfold binTypeFor chooseBinType
                cases hdl : discLookup d f with
                | none => simp; omega
                | some u =>
                  simp only [Option.map_some]
                  rw [if_neg (hnd u hdl), if_neg (by omega)]
              rw [hbt] at hpar
              unfold binParams at hpar
              simp only [] at hpar
              split at hpar <;> split at hpar <;> simp_all

theorem makeHistLoop_auto {R : Rng K G} {isCls : Bool} {data : List (List K)} {classes : List K} {minmax : Option (List K × List K)}
    {d : DiscDict K} {B : Nat} {g : G} :
    ∀ (n : Nat) (st : Hists K G),
    makeHistLoop R isCls data classes minmax d none B (List.range n)
      { hists := [], notCons := [], cons := [], numBins := B, g := g } = .ok st →
    st.hists.length = n ∧ (∀ f h, st.hists[f]? = some h → ∃ nb, AutoEdges data minmax d B nb f h ∧
      (B < data.length → (∀ f' < f, ∀ u, ¬ FewListed data.length d B f' u) → nb = B)) ∧
      (B < data.length → (∀ f < n, ∀ u, ¬ FewListed data.length d B f u) → st.numBins = B) := by
  intro n
  induction n with
  | zero =>
    intro st h
    cases h
    exact ⟨rfl, fun f h hf => by simp at hf, fun _ _ => rfl⟩
  | succ n ih =>
    intro st h
    rw [List.range_succ, makeHistLoop_append] at h
    cases h1 : makeHistLoop R isCls data classes minmax d none B (List.range n)
        { hists := [], notCons := [], cons := [], numBins := B, g := g } with
    | error e => rw [h1] at h; cases h
    | ok st1 =>
      rw [h1] at h
      obtain ⟨i1, i2, i3⟩ := ih st1 h1
      simp only [makeHistLoop] at h
      cases h2 : makeHistStep R isCls data classes minmax d none B n st1 with
      | error e => rw [h2] at h; cases h
      | ok st2 =>
        rw [h2] at h
        cases h
        obtain ⟨hh, e1, e2, e3, e4⟩ := makeHistStep_auto h2
        refine ⟨by rw [e1, List.length_append, i1]; rfl, fun f h hf => ?_, fun hlt hno => ?_⟩
        · rw [e1] at hf
          rcases Nat.lt_or_ge f n with hlt | hge
          · rw [List.getElem?_append_left (by omega)] at hf
            exact i2 f h hf
          · rw [List.getElem?_append_right (by omega), i1] at hf
            have : f = n := by
              have := (List.getElem?_eq_some_iff.1 hf).1
              simp at this
              omega
            subst this
            simp only [Nat.sub_self, List.getElem?_cons_zero, Option.some.injEq] at hf
            subst hf
            exact ⟨_, e2, fun hlt hno => i3 hlt hno⟩
        · rw [e4 (hno n (by omega)) hlt]
          exact i3 hlt (fun f hf => hno f (by omega))

/-- C79, the part that holds. Without a bin type, every feature gets its listed values as bin edges if there are few enough of them, all its
values if there are no more rows than bins, and equally spaced edges otherwise. The number of equally spaced edges is the requested one as
long as no earlier feature was given listed values. -/
theorem C79_auto_bins_partial (R : Rng K G) (g : G) (isCls : Bool) (row : List K) (rest : List (List K)) (labels : List K)
    (minmax : Option (List K × List K)) (d : DiscDict K) (B : Nat) (hs : Hists K G)
    (h : makeHistograms R g isCls (row :: rest) labels minmax d none B = .ok hs) :
    hs.hists.length = row.length ∧
    ∀ f h, hs.hists[f]? = some h → ∃ nb, AutoEdges (row :: rest) minmax d B nb f h ∧
      (B < rest.length + 1 → (∀ f' < f, ∀ u, ¬ FewListed (rest.length + 1) d B f' u) → nb = B) := by
  obtain ⟨h1, h2, _⟩ := makeHistLoop_auto _ _ h
  exact ⟨h1, h2⟩

/-- A table with two columns and four rows, three bins; column 0 is listed with values 0, 1. -/
example : (makeHistograms rngQ 0 false [[0, 1], [1, 9], [0, 3], [1, 5]] [1, 2, 3, (4 : ℚ)] none none none 3).map
    (fun hs => hs.hists.map (fun h => h.edges)) = .ok [some [0, 1 / 2, 1], some [1, 5, 9]] ∧
    (makeHistograms rngQ 0 false [[0, 1], [1, 9], [0, 3], [1, 5]] [1, 2, 3, (4 : ℚ)] none
      (some [(1, { isSet := false, vals := [1, 9] })]) none 3).map
    (fun hs => hs.hists.map (fun h => h.edges)) = .ok [some [0, 1 / 2, 1], some [1, 9]] := by
  constructor <;> decide +kernel

/-- C79 fails when a listed feature comes first: three bins are asked for, but column 1 gets only two edges, because column 0 has two listed
values. -/
theorem C79_refuted : (makeHistograms rngQ 0 false [[0, 1], [1, 9], [0, 3], [1, 5]] [1, 2, 3, (4 : ℚ)] none
      (some [(0, { isSet := false, vals := [0, 1] })]) none 3).map
    (fun hs => hs.hists.map (fun h => h.edges)) = .ok [some [0, 1], some [1, 9]] := by
  decide +kernel

/-! ### C80 -/

/-- C80. Every node of a fitted tree considers exactly as many of the tree's features as `feature_subsampling` asks for, all of them without
subsampling, distinct if the tree's are; and a node that was split was split on one of the features it considered. -/
theorem C80_node_features (R : Rng K G) (mem : Nat → Junk K) (A : TreeArgs K) (t : Tree K G) (h : Fitted R mem A t)
    (id : Nat) (nd : Node K) (hn : NodeAt t id nd) :
    (∀ f ∈ nd.featIdcs, f ∈ A.cols) ∧ AsksFor A.cols.length A.cfg.featSub nd.featIdcs.length ∧
    (A.cols.Nodup → nd.featIdcs.Nodup) ∧ (A.cfg.featSub = .none → nd.featIdcs = A.cols) ∧
    (nd.left ≠ none → ∃ f ∈ nd.featIdcs, nd.splitFeature = some f) := by
  obtain ⟨dd, t0, hg⟩ := h.facts
  have hok := hg.nodes id nd hn
  have hcfg : t.cfg.featSub = A.cfg.featSub := by rw [hg.cfg_eq]
  obtain ⟨c, h1, h2⟩ := hok.feats_num.num
  refine ⟨hok.feats_sub, ?_, hok.feats_num.nodup, fun hs => hok.feats_num.all (by rw [hcfg]; exact hs), fun hl => ?_⟩
  · rw [h2]
    rw [hcfg] at h1
    exact asks_featCount h1
  · rcases hg.shape.links id nd hn with ⟨h3, _⟩ | ⟨l, r, nl, nr, _, _, _, _, _, _, _, hsp⟩
    · exact absurd h3 hl
    · obtain ⟨f, hf, hm, _⟩ := hsp.feat
      exact ⟨f, hm, hf⟩

/-- A tree on four columns that considers two of them at each node. -/
def exArgsSub : TreeArgs ℚ :=
  { exArgs with cfg := { cfgQ with featSub := .sqrt }
                data := [[0, 5, 1, 3], [1, 5, 0, 3], [2, 6, 1, 2], [3, 6, 4, 4], [4, 6, 3, 1], [5, 7, 1, 0]] }

example : ∃ t, Fitted rngQ exMem exArgsSub t ∧
    decide ((t.nodes.map (fun nd => nd.featIdcs.length)) = List.replicate t.nodes.length 2 ∧ 0 < t.numSplits) = true :=
  runTree_exists (glob := exGlob) (by decide +kernel)

end FF
