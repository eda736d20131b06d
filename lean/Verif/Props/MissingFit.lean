import Verif.Proofs.Missing
import Verif.Props.Predict
import Verif.Props.Missing

/-!
# Missing values in the training data (C128)
-/

namespace FF

open Spec

set_option linter.unusedSectionVars false

variable {K : Type} [Field K] [LinearOrder K] [IsStrictOrderedRing K] [FloorRing K] [NpFun K] {G : Type}

section
variable {nan : K} {A : TreeArgs K} {t : Tree K G}

/-- The last step on the way to a node. -/
theorem Reaches.last {x : List K} {id : Nat} (h : Reaches nan t x id) (hid : id ≠ 0) :
    ∃ (p f : Nat) (v : K) (nd : Node K), Reaches nan t x p ∧ NodeAt t p nd ∧ nd.splitFeature = some f ∧ x[f]? = some v ∧ v ≠ nan ∧
      ((nd.left = some id ∧ v ≤ nd.splitValue) ∨ (nd.right = some id ∧ nd.splitValue < v)) := by
  cases h with
  | root => exact absurd rfl hid
  | left hp hn hl hf hx hk hv => exact ⟨_, _, _, _, hp, hn, hf, hx, hk, Or.inl ⟨hl, hv⟩⟩
  | right hp hn hr hf hx hk hv => exact ⟨_, _, _, _, hp, hn, hf, hx, hk, Or.inr ⟨hr, hv⟩⟩

theorem NInv.value (h : NInv nan A t) {p i f : Nat} {nd : Node K} (hn : t.nodes[p]? = some nd) (hi : i ∈ nd.idcs) (hf : f ∈ nd.featIdcs) :
    (A.data.getD i [])[f]? = some ((A.data.getD i []).getD f 0) := by
  have hlt := ((h.node p nd hn).rows_lt i hi).2 f hf
  rw [List.getD_eq_getElem _ _ hlt]
  exact List.getElem?_eq_getElem hlt

open Classical in
theorem NInv.rows (h : NInv nan A t) : ∀ id < t.nodes.length,
    rowsOf t id = A.rows.filter (fun i => decide (Reaches nan t (A.data.getD i []) id)) := by
  intro id
  induction id using Nat.strong_induction_on with
  | _ id ih =>
    intro hid
    by_cases h0 : id = 0
    · subst h0
      obtain ⟨nd, h1, h2⟩ := h.root
      unfold rowsOf
      rw [h1]
      simp only [Option.map_some, Option.getD_some, h2]
      symm
      rw [List.filter_eq_self]
      intro i _
      simp [Reaches.root]
    · obtain ⟨p, nd, hp, hnd, hc⟩ := h.parents id (Nat.pos_of_ne_zero h0) hid
      have hip := ih p hp (hp.trans hid)
      rcases h.links p nd hnd with ⟨h1, h2⟩ | ⟨l, r, nl, nr, h1, h2, h3, h4, hlr, h5, h6, h7⟩
      · rw [h1, h2] at hc
        rcases hc with hc | hc <;> cases hc
      obtain ⟨f, hf, hfm, hil, hir⟩ := h7.feat
      have hpr : rowsOf t p = nd.idcs := by unfold rowsOf; rw [hnd]; rfl
      rw [hpr] at hip
      -- a row of the parent reaches the child if its value is known and on the right side
      have hup : ∀ i ∈ nd.idcs, i ∈ A.rows ∧ Reaches nan t (A.data.getD i []) p := by
        intro i hi
        rw [hip] at hi
        have := List.mem_filter.1 hi
        exact ⟨this.1, by simpa using this.2⟩
      have hlast : ∀ i, Reaches nan t (A.data.getD i []) id → Reaches nan t (A.data.getD i []) p ∧
          ∃ v, (A.data.getD i [])[f]? = some v ∧ v ≠ nan ∧
            ((id = l ∧ v ≤ nd.splitValue) ∨ (id = r ∧ nd.splitValue < v)) := by
        intro i hr
        obtain ⟨q, f', v, nq, hq, hnq, hf', hx, hk, hs⟩ := hr.last h0
        have hqp : q = p := h.uniq q p nq nd id hnq hnd (by rcases hs with ⟨a, _⟩ | ⟨a, _⟩ <;> simp [a]) hc
        subst hqp
        obtain rfl := Option.some.inj (hnd.symm.trans hnq)
        rw [hf] at hf'
        obtain rfl := Option.some.inj hf'
        refine ⟨hq, v, hx, hk, ?_⟩
        rw [h1, h2] at hs
        rcases hs with ⟨a, b⟩ | ⟨a, b⟩
        · exact Or.inl ⟨(Option.some.inj a).symm, b⟩
        · exact Or.inr ⟨(Option.some.inj a).symm, b⟩
      rw [h1, h2] at hc
      have hcases : id = l ∨ id = r := by
        rcases hc with hc | hc
        · exact Or.inl (Option.some.inj hc).symm
        · exact Or.inr (Option.some.inj hc).symm
      rcases hcases with rfl | rfl
      · have : rowsOf t id = nl.idcs := by unfold rowsOf; rw [h5]; rfl
        rw [this, hil, hip, List.filter_filter]
        apply List.filter_congr
        intro i hi
        rw [← Bool.decide_and, decide_eq_decide]
        constructor
        · rintro ⟨⟨hk, hv⟩, hr⟩
          have hmem : i ∈ nd.idcs := by rw [hip]; exact List.mem_filter.2 ⟨hi, by simpa using hr⟩
          exact .left hr hnd h1 hf (h.value hnd hmem hfm) hk hv
        · intro hr
          obtain ⟨hr', v, hx, hk, hs⟩ := hlast i hr
          rcases hs with ⟨_, hs⟩ | ⟨hs, _⟩
          · have hv : (A.data.getD i []).getD f 0 = v := by rw [List.getD_eq_getElem?_getD, hx]; rfl
            rw [hv]
            exact ⟨⟨hk, hs⟩, hr'⟩
          · exact absurd hs hlr
      · have : rowsOf t id = nr.idcs := by unfold rowsOf; rw [h6]; rfl
        rw [this, hir, hip, List.filter_filter]
        apply List.filter_congr
        intro i hi
        rw [← Bool.decide_and, decide_eq_decide]
        constructor
        · rintro ⟨⟨hk, hv⟩, hr⟩
          have hmem : i ∈ nd.idcs := by rw [hip]; exact List.mem_filter.2 ⟨hi, by simpa using hr⟩
          exact .right hr hnd h2 hf (h.value hnd hmem hfm) hk hv
        · intro hr
          obtain ⟨hr', v, hx, hk, hs⟩ := hlast i hr
          rcases hs with ⟨hs, _⟩ | ⟨_, hs⟩
          · exact absurd hs.symm hlr
          · have hv : (A.data.getD i []).getD f 0 = v := by rw [List.getD_eq_getElem?_getD, hx]; rfl
            rw [hv]
            exact ⟨⟨hk, hs⟩, hr'⟩

/-- Where a row that comes down from node `a` ends: in a leaf, or where a missing value is tested. -/
inductive EndsAt (nan : K) (t : Tree K G) (x : List K) : Nat → Nat → Prop
  | leaf {a : Nat} {nd : Node K} (hn : NodeAt t a nd) (hl : nd.left = none) (hr : nd.right = none) : EndsAt nan t x a a
  | missing {a f : Nat} {nd : Node K} (hn : NodeAt t a nd) (hl : nd.left ≠ none) (hf : nd.splitFeature = some f) (hx : x[f]? = some nan) :
      EndsAt nan t x a a
  | left {a c e f : Nat} {v : K} {nd : Node K} (hn : NodeAt t a nd) (hl : nd.left = some c) (hf : nd.splitFeature = some f)
      (hx : x[f]? = some v) (hk : v ≠ nan) (hv : v ≤ nd.splitValue) (he : EndsAt nan t x c e) : EndsAt nan t x a e
  | right {a c e f : Nat} {v : K} {nd : Node K} (hn : NodeAt t a nd) (hr : nd.right = some c) (hf : nd.splitFeature = some f)
      (hx : x[f]? = some v) (hk : v ≠ nan) (hv : nd.splitValue < v) (he : EndsAt nan t x c e) : EndsAt nan t x a e

theorem EndsAt.det (h : NInv nan A t) {x : List K} {a e : Nat} (h1 : EndsAt nan t x a e) : ∀ {e'}, EndsAt nan t x a e' → e = e' := by
  induction h1 with
  | leaf hn hl hr =>
    intro e' h2
    cases h2 with
    | leaf _ _ _ => rfl
    | missing _ _ _ _ => rfl
    | left hn' hl' _ _ _ _ _ =>
      obtain rfl := Option.some.inj (Eq.trans hn.symm hn')
      rw [hl] at hl'; cases hl'
    | right hn' hr' _ _ _ _ _ =>
      obtain rfl := Option.some.inj (Eq.trans hn.symm hn')
      rw [hr] at hr'; cases hr'
  | missing hn hl hf hx =>
    intro e' h2
    cases h2 with
    | leaf _ _ _ => rfl
    | missing _ _ _ _ => rfl
    | left hn' _ hf' hx' hk' _ _ =>
      obtain rfl := Option.some.inj (Eq.trans hn.symm hn')
      rw [hf] at hf'; cases hf'
      rw [hx] at hx'; cases hx'
      exact absurd rfl hk'
    | right hn' _ hf' hx' hk' _ _ =>
      obtain rfl := Option.some.inj (Eq.trans hn.symm hn')
      rw [hf] at hf'; cases hf'
      rw [hx] at hx'; cases hx'
      exact absurd rfl hk'
  | left hn hl hf hx hk hv _ ih =>
    intro e' h2
    cases h2 with
    | leaf hn' hl' _ =>
      obtain rfl := Option.some.inj (Eq.trans hn.symm hn')
      rw [hl] at hl'; cases hl'
    | missing hn' _ hf' hx' =>
      obtain rfl := Option.some.inj (Eq.trans hn.symm hn')
      rw [hf] at hf'; cases hf'
      rw [hx] at hx'; cases hx'
      exact absurd rfl hk
    | left hn' hl' _ _ _ _ he =>
      obtain rfl := Option.some.inj (Eq.trans hn.symm hn')
      rw [hl] at hl'; cases hl'
      exact ih he
    | right hn' _ hf' hx' _ hv' _ =>
      obtain rfl := Option.some.inj (Eq.trans hn.symm hn')
      rw [hf] at hf'; cases hf'
      rw [hx] at hx'; cases hx'
      exact absurd hv (not_le.2 hv')
  | right hn hr hf hx hk hv _ ih =>
    intro e' h2
    cases h2 with
    | leaf hn' _ hr' =>
      obtain rfl := Option.some.inj (Eq.trans hn.symm hn')
      rw [hr] at hr'; cases hr'
    | missing hn' _ hf' hx' =>
      obtain rfl := Option.some.inj (Eq.trans hn.symm hn')
      rw [hf] at hf'; cases hf'
      rw [hx] at hx'; cases hx'
      exact absurd rfl hk
    | left hn' _ hf' hx' _ hv' _ =>
      obtain rfl := Option.some.inj (Eq.trans hn.symm hn')
      rw [hf] at hf'; cases hf'
      rw [hx] at hx'; cases hx'
      exact absurd hv' (not_le.2 hv)
    | right hn' hr' _ _ _ _ he =>
      obtain rfl := Option.some.inj (Eq.trans hn.symm hn')
      rw [hr] at hr'; cases hr'
      exact ih he

theorem Reaches.ends {x : List K} {id e : Nat} (h : Reaches nan t x id) (he : EndsAt nan t x id e) : EndsAt nan t x 0 e := by
  induction h with
  | root => exact he
  | left _ hn hl hf hx hk hv ih => exact ih (.left hn hl hf hx hk hv he)
  | right _ hn hr hf hx hk hv ih => exact ih (.right hn hr hf hx hk hv he)

theorem Reaches.inTree {x : List K} {id : Nat} (h : Reaches nan t x id) : InTree t id := by
  induction h with
  | root => exact .root
  | left _ hn hl _ _ _ _ ih => exact .left ih hn hl
  | right _ hn hr _ _ _ _ ih => exact .right ih hn hr

/-- From every node it holds a row goes on to a leaf, or a missing value is tested. -/
theorem NInv.descend (h : NInv nan A t) {i : Nat} : ∀ (k id : Nat) (nd : Node K), t.nodes.length - id ≤ k → t.nodes[id]? = some nd →
    i ∈ nd.idcs → Reaches nan t (A.data.getD i []) id →
    (∃ leaf, IsLeaf t leaf ∧ Reaches nan t (A.data.getD i []) leaf) ∨ MeetsMissing nan t (A.data.getD i []) := by
  intro k
  induction k with
  | zero =>
    intro id nd hk hn
    have := (List.getElem?_eq_some_iff.1 hn).1
    omega
  | succ k ih =>
    intro id nd hk hn hi hr
    rcases h.links id nd hn with ⟨h1, h2⟩ | ⟨l, r, nl, nr, h1, h2, h3, h4, hlr, h5, h6, h7⟩
    · exact Or.inl ⟨id, ⟨hr.inTree, nd, hn, h1, h2⟩, hr⟩
    obtain ⟨f, hf, hfm, hil, hir⟩ := h7.feat
    have hv := h.value hn hi hfm
    by_cases hk' : (A.data.getD i []).getD f 0 = nan
    · rw [hk'] at hv
      exact Or.inr ⟨id, f, nd, hr, hn, by rw [h1]; simp, hf, hv⟩
    rcases le_or_gt ((A.data.getD i []).getD f 0) nd.splitValue with hle | hgt
    · exact ih l nl (by omega) h5 (by rw [hil]; exact List.mem_filter.2 ⟨hi, by simpa using ⟨hk', hle⟩⟩) (.left hr hn h1 hf hv hk' hle)
    · exact ih r nr (by omega) h6 (by rw [hir]; exact List.mem_filter.2 ⟨hi, by simpa using ⟨hk', hgt⟩⟩) (.right hr hn h2 hf hv hk' hgt)

theorem NInv.leaf_unique (h : NInv nan A t) {x : List K} {a b : Nat} (ha : IsLeaf t a) (hb : IsLeaf t b) (h1 : Reaches nan t x a)
    (h2 : Reaches nan t x b) : a = b := by
  obtain ⟨_, na, hna, hla, hra⟩ := ha
  obtain ⟨_, nb, hnb, hlb, hrb⟩ := hb
  exact EndsAt.det h (h1.ends (.leaf hna hla hra)) (h2.ends (.leaf hnb hlb hrb))

theorem NInv.missing_no_leaf (h : NInv nan A t) {x : List K} {a : Nat} (ha : IsLeaf t a) (h1 : Reaches nan t x a)
    (hm : MeetsMissing nan t x) : False := by
  obtain ⟨_, na, hna, hla, hra⟩ := ha
  obtain ⟨p, f, nd, hp, hn, hl, hf, hx⟩ := hm
  have := EndsAt.det h (h1.ends (.leaf hna hla hra)) (hp.ends (.missing hn hl hf hx))
  subst this
  obtain rfl := Option.some.inj (Eq.trans hna.symm hn)
  exact hl hla

theorem NInv.inTree (h : NInv nan A t) {id : Nat} (hi : InTree t id) : id < t.nodes.length := by
  induction hi with
  | root =>
    obtain ⟨nd, h1, _⟩ := h.root
    exact (List.getElem?_eq_some_iff.1 h1).1
  | left _ hn hl _ =>
    rcases h.links _ _ hn with ⟨h1, _⟩ | ⟨l, r, nl, nr, h1, h2, _, _, _, h5, h6, _⟩
    · rw [hl] at h1; cases h1
    · rw [hl] at h1; cases h1
      exact (List.getElem?_eq_some_iff.1 h5).1
  | right _ hn hr _ =>
    rcases h.links _ _ hn with ⟨_, h1⟩ | ⟨l, r, nl, nr, h1, h2, _, _, _, h5, h6, _⟩
    · rw [hr] at h1; cases h1
    · rw [hr] at h2; cases h2
      exact (List.getElem?_eq_some_iff.1 h6).1

end

section
variable (nan : K) (R : Rng K G) (mem : Nat → Junk K) (A : TreeArgs K)

open Classical in
/-- C128, in part. The rows of a node are the training rows that come down to it without a missing value being tested (a row drawn
several times is there as often). -/
theorem C128_rows_partial (t : Tree K G) (h : FittedNaN nan R mem A t) (id : Nat) (hid : InTree t id) :
    rowsOf t id = A.rows.filter (fun i => decide (Reaches nan t (A.data.getD i []) id)) :=
  h.inv.rows id (h.inv.inTree hid)

/-- C128, in part. A training row is in exactly one leaf, unless on its way down it is tested for a value that is missing: then it is in
no leaf. -/
theorem C128_leaf_or_lost_partial (t : Tree K G) (h : FittedNaN nan R mem A t) (i : Nat) (hi : i ∈ A.rows) :
    (¬ MeetsMissing nan t (A.data.getD i []) ∧ ∃ leaf, IsLeaf t leaf ∧ i ∈ rowsOf t leaf ∧
      ∀ leaf', IsLeaf t leaf' → i ∈ rowsOf t leaf' → leaf' = leaf) ∨
    (MeetsMissing nan t (A.data.getD i []) ∧ ∀ leaf, IsLeaf t leaf → i ∉ rowsOf t leaf) := by
  classical
  have hinv := h.inv
  have hrows : ∀ id, InTree t id → (i ∈ rowsOf t id ↔ Reaches nan t (A.data.getD i []) id) := by
    intro id hid
    rw [hinv.rows id (hinv.inTree hid), List.mem_filter, decide_eq_true_eq]
    exact ⟨fun h => h.2, fun h => ⟨hi, h⟩⟩
  obtain ⟨root, hr1, hr2⟩ := hinv.root
  by_cases hm : MeetsMissing nan t (A.data.getD i [])
  · exact Or.inr ⟨hm, fun leaf hl hmem => hinv.missing_no_leaf hl ((hrows leaf hl.1).1 hmem) hm⟩
  · rcases hinv.descend t.nodes.length 0 root (by omega) hr1 (by rw [hr2]; exact hi) .root with ⟨leaf, hl, hre⟩ | hm'
    · exact Or.inl ⟨hm, leaf, hl, (hrows leaf hl.1).2 hre, fun leaf' hl' hmem =>
        hinv.leaf_unique hl' hl ((hrows leaf' hl'.1).1 hmem) hre⟩
    · exact absurd hm' hm

theorem FittedNaN.predict_parts {nan : K} {R : Rng K G} {mem : Nat → Junk K} {A : TreeArgs K} {t t1 t2 : Tree K G} (h : FittedNaN nan R mem A t)
    (ha : AfterPredicts t t1) {x : List K} {p : Pred K} (hp : t1.predict x = .ok (p, t2)) :
    ∃ leaf nd, IsLeaf t leaf ∧ Routes t x 0 leaf ∧ NodeAt t leaf nd ∧ nd.left = none ∧ rowsOf t leaf = nd.idcs ∧
      nodePred t.cfg nd = .ok p := by
  have h0 : CacheOf t t := .refl (fun _ _ hn => (h.inv.node _ _ hn).cache)
  have h1 := (predict_cache (ha.cache h0) x).1
  rw [hp] at h1
  unfold purePredict at h1
  cases hw : walk t.nodes x t.nodes.length 0 with
  | error e => rw [hw] at h1; cases h1
  | ok leaf =>
    rw [hw] at h1
    simp only [] at h1
    cases hn : t.nodes[leaf]? with
    | none => rw [hn] at h1; cases h1
    | some nd =>
      rw [hn] at h1
      have hr := walk_routes hw
      have hl := hr.isLeaf .root
      obtain ⟨_, nd', hn', hl', _⟩ := id hl
      obtain rfl := Option.some.inj (hn'.symm.trans hn)
      exact ⟨leaf, nd', hl, hr, hn', hl', by unfold rowsOf; rw [hn]; rfl, h1.symm⟩

/-- C128, in part. Whatever was predicted before, the tree answers with the mean (the class frequencies) of the training labels of the
rows in the leaf to which the point is sent, that is of the rows that came down to it without a missing value being tested. -/
theorem C128_answers_partial (t t1 t2 : Tree K G) (h : FittedNaN nan R mem A t) (hd : A.cfg.isCls = true → ClassesOK A.cfg.classes)
    (ha : AfterPredicts t t1) (x : List K) (p : Pred K) (hp : t1.predict x = .ok (p, t2)) :
    ∃ leaf rows, IsLeaf t leaf ∧ Routes t x 0 leaf ∧ rows ≠ [] ∧ rows.Sublist A.rows ∧
      (∀ i ∈ A.rows, i ∈ rows ↔ Reaches nan t (A.data.getD i []) leaf) ∧
      (A.cfg.isCls = false → p = .reg (mean (labelsOf A.labels rows))) ∧
      (A.cfg.isCls = true → ∃ label, p = .cls label (A.cfg.classes.map (fun c => freq (labelsOf A.labels rows) c.1)) ∧
        ∀ c ∈ A.cfg.classes, freq (labelsOf A.labels rows) c.1 ≤ freq (labelsOf A.labels rows) label) := by
  classical
  have hinv := h.inv
  obtain ⟨leaf, nd, h1, h2, h3, h4, h5, h6⟩ := h.predict_parts ha hp
  have hr := hinv.rows leaf (hinv.inTree h1.1)
  have hno := hinv.node _ _ h3
  obtain ⟨e1, e2⟩ := hinv.cls
  have hreg : A.cfg.isCls = false → p = .reg (mean (labelsOf A.labels nd.idcs)) ∧ nd.idcs ≠ [] := by
    intro hc
    unfold nodePred at h6
    rw [e1, hc, if_neg (by simp), hno.open_labels h4] at h6
    cases hy : labelsOf A.labels nd.idcs with
    | nil => rw [hy] at h6; cases h6
    | cons y ys =>
      rw [hy] at h6
      cases h6
      refine ⟨rfl, ?_⟩
      intro he
      rw [he] at hy
      cases hy
  have hcls : A.cfg.isCls = true → nd.idcs ≠ [] ∧
      ∃ label, p = .cls label (A.cfg.classes.map (fun c => freq (labelsOf A.labels nd.idcs) c.1)) ∧
        ∀ c ∈ A.cfg.classes, freq (labelsOf A.labels nd.idcs) c.1 ≤ freq (labelsOf A.labels nd.idcs) label := by
    intro hc
    have hcounts := hno.counts_cls (by rw [e1]; exact hc)
    rw [e2] at hcounts
    obtain ⟨hce, hmem⟩ := countsOfLabels_spec (hd hc) hcounts
    have hsum : nd.counts.sum = (labelsOf A.labels nd.idcs).length := by
      rw [hce]
      have := sum_count_eq_length (A.cfg.classes.map Prod.fst) (hd hc).1 _ hmem
      rw [List.map_map] at this
      exact this
    have hprobs : nd.counts.map (fun (c : Nat) => (c : K) / ((nd.counts.sum : Nat) : K)) =
        A.cfg.classes.map (fun c => freq (labelsOf A.labels nd.idcs) c.1) := by
      rw [hsum, hce, List.map_map]
      rfl
    unfold nodePred at h6
    rw [e1, hc, if_pos rfl] at h6
    by_cases hs : nd.counts.sum = 0
    · rw [if_pos hs] at h6; cases h6
    rw [if_neg hs, hprobs, e2] at h6
    refine ⟨fun he => hs (by rw [hsum, he]; rfl), ?_⟩
    cases ha : npArgmax (A.cfg.classes.map (fun c => freq (labelsOf A.labels nd.idcs) c.1)) with
    | none => rw [ha] at h6; cases h6
    | some i =>
      rw [ha] at h6
      simp only [] at h6
      cases hi : idxToClass A.cfg.classes i with
      | none => rw [hi] at h6; cases h6
      | some l =>
        rw [hi] at h6
        cases h6
        have hdi := ((hd hc).idxToClass i l).1 hi
        obtain ⟨m, hm1, hm2⟩ := npArgmax_spec ha
        rw [List.getElem?_map, hdi] at hm1
        obtain rfl := Option.some.inj hm1
        refine ⟨l, rfl, fun c hc' => ?_⟩
        obtain ⟨j, hj⟩ := List.mem_iff_getElem?.1 hc'
        exact (hm2 j _ (by rw [List.getElem?_map, hj]; rfl)).1
  refine ⟨leaf, nd.idcs, h1, h2, ?_, ?_, ?_, fun hc => (hreg hc).1, fun hc => (hcls hc).2⟩
  · cases hc : A.cfg.isCls with
    | true => exact (hcls hc).1
    | false => exact (hreg hc).2
  · rw [← h5, hr]
    exact List.filter_sublist
  · intro i hi
    rw [← h5, hr, List.mem_filter, decide_eq_true_eq]
    exact ⟨fun h => h.2, fun h => ⟨hi, h⟩⟩

end

/-! ### Nothing missing -/

section
variable {nan : K} {R : Rng K G} {mem : Nat → Junk K} {A : TreeArgs K}

theorem splitNodeCoreNaN_same {cfg : TreeCfg K} {t : Tree K G} {id : Nat} {nd : Node K} (hn : NNode cfg A.data A.labels nd) (hl : nd.left = none)
    (hd : ∀ row ∈ A.data, ∀ v ∈ row, v < nan) : splitNodeCoreNaN nan R t id nd = splitNodeCore R t id nd := by
  unfold splitNodeCoreNaN splitNodeCore
  cases nd.splitReduction with
  | none => rfl
  | some red =>
    dsimp only
    split_ifs
    · rfl
    · rw [hn.open_data hl, hn.open_labels hl]
      dsimp only
      cases hc : colE (subRows A.data nd.idcs nd.featIdcs) nd.prevSplitFeature with
      | error e => rfl
      | ok col =>
        dsimp only
        by_cases hne : nd.idcs = []
        · rw [hne, if_pos (Or.inl (by simp [splitIdcsNaN])), if_pos (Or.inl (by simp [splitIdcs]))]
        obtain ⟨hf, rfl⟩ := subRows_col hc hne
        have hlt : ∀ i ∈ nd.idcs, (A.data.getD i []).getD (nd.featIdcs.getD nd.prevSplitFeature 0) 0 < nan := by
          intro i hi
          obtain ⟨h1, h2⟩ := hn.rows_lt i hi
          have h3 := h2 (nd.featIdcs.getD nd.prevSplitFeature 0) (by rw [List.getD_eq_getElem _ _ hf]; exact List.getElem_mem _)
          rw [List.getD_eq_getElem _ _ h3]
          refine hd (A.data.getD i []) ?_ _ (List.getElem_mem _)
          rw [List.getD_eq_getElem _ _ h1]
          exact List.getElem_mem _
        by_cases hv : nd.splitValue = nan
        · rw [if_pos (Or.inl ?_), if_pos (Or.inr ?_)]
          · rw [splitIdcs_map, List.length_eq_zero_iff, List.filter_eq_nil_iff]
            intro i hi
            have := hlt i hi
            simp only [hv, decide_eq_true_eq, not_lt]
            exact this.le
          · rw [splitIdcsNaN_map, List.length_eq_zero_iff, List.filter_eq_nil_iff]
            intro i _
            simp [hv]
        · have he : splitIdcsNaN nan nd.idcs (nd.idcs.map fun i => (A.data.getD i []).getD (nd.featIdcs.getD nd.prevSplitFeature 0) 0)
              nd.splitValue = splitIdcs nd.idcs (nd.idcs.map fun i =>
                (A.data.getD i []).getD (nd.featIdcs.getD nd.prevSplitFeature 0) 0) nd.splitValue := by
            rw [splitIdcsNaN_map, splitIdcs_map]
            congr 1
            · apply List.filter_congr
              intro i hi
              rw [decide_eq_decide]
              exact ⟨fun h => h.2.2, fun h => ⟨(hlt i hi).ne, hv, h⟩⟩
            · apply List.filter_congr
              intro i hi
              rw [decide_eq_decide]
              exact ⟨fun h => h.2.2, fun h => ⟨(hlt i hi).ne, hv, h⟩⟩
          rw [he]
          generalize splitIdcs nd.idcs (nd.idcs.map fun i =>
                (A.data.getD i []).getD (nd.featIdcs.getD nd.prevSplitFeature 0) 0) nd.splitValue = lr
          split_ifs
          · rfl
          · cases childNode R t.rng t nd (labelsOf A.labels nd.idcs).length lr.1 with
            | error e => rfl
            | ok q =>
              dsimp only
              cases childNode R q.2 t nd (labelsOf A.labels nd.idcs).length lr.2 <;> rfl

theorem splitBestNaN_same {s : Scan K G} (h : NInv nan A s.t) (hb : ∀ b, s.best = some b → BestOK s.t.cfg s.t.leaves s.t.nodes b)
    (hd : ∀ row ∈ A.data, ∀ v ∈ row, v < nan) : splitBestNaN nan R mem s = splitBest R mem s := by
  unfold splitBestNaN splitBest
  cases hbest : s.best with
  | none => rfl
  | some b =>
    obtain ⟨pos, id, red⟩ := b
    obtain ⟨hpos, nd, hnd, hc, hcomp, hsp, hred⟩ := hb _ hbest
    simp only [] at hpos hnd hred
    obtain ⟨nd', hnd', hok⟩ := h.sim.leaf id (List.mem_of_getElem? hpos)
    rw [hnd] at hnd'
    obtain rfl := Option.some.inj hnd'
    have hp : performSplitNaN nan R mem s pos id = performSplit R mem s pos id := by
      unfold performSplitNaN performSplit splitNodeNaN splitNode
      rw [hnd]
      simp only [hok.split_eq, Bool.false_eq_true, if_false]
      rw [if_neg (hok.comp_feat red hred).2]
      dsimp only
      rw [splitNodeCoreNaN_same (A := A) (h.node _ _ hnd) hok.left_eq hd]
      cases splitNodeCore R { s.t with nodes := s.t.nodes.set id nd, rng := s.t.rng } id nd with
      | error e => rfl
      | ok t' =>
        dsimp only
        cases (t'.nodes[id]?).bind Node.left <;> cases (t'.nodes[id]?).bind Node.right <;> rfl
    dsimp only
    rw [hp]
    split_ifs
    · cases performSplit R mem s pos id <;> rfl
    · rfl

theorem fitStepNaN_same {t : Tree K G} {glob : Glob G} (h : NInv nan A t) (hd : ∀ row ∈ A.data, ∀ v ∈ row, v < nan) :
    fitStepNaN nan R mem t glob = fitStep R mem t glob := by
  unfold fitStepNaN fitStep
  cases leafLimit t.cfg.maxLeafNodes t.leaves.length with
  | error e => rfl
  | ok b =>
    cases b with
    | true => rfl
    | false =>
      dsimp only
      cases hscan : scanLeaves R mem 0 t.leaves { t := t, glob := glob, best := none } with
      | error e => rfl
      | ok s =>
        obtain ⟨h1, h2⟩ := scanLeaves_sim (t0 := t) ⟨h.sim, rfl, rfl, fun b hb => by cases hb⟩
          (fun i hi => by rw [Nat.zero_add]; exact List.getElem?_eq_getElem hi) hscan
        have h3 : NInv nan A s.t := h.steps h1 (scanLeaves_numSplits _ _ _ _ hscan)
        dsimp only
        rw [splitBestNaN_same h3 h2.best hd]
        cases splitBest R mem s with
        | error e => rfl
        | ok p =>
          dsimp only
          cases getDepth p.2.1 <;> rfl

theorem fitLoopNaN_same (hd : ∀ row ∈ A.data, ∀ v ∈ row, v < nan) : ∀ (fuel : Nat) (t : Tree K G) (glob : Glob G), NInv nan A t →
    fitLoopNaN nan R mem fuel t glob = fitLoop R mem fuel t glob := by
  intro fuel
  induction fuel with
  | zero => intro t glob _; rfl
  | succ n ih =>
    intro t glob h
    unfold fitLoopNaN fitLoop
    rw [fitStepNaN_same h hd]
    cases hs : fitStep R mem t glob with
    | error e => rfl
    | ok p =>
      obtain ⟨b, t', glob'⟩ := p
      cases b with
      | false => rfl
      | true =>
        dsimp only
        rw [← fitStepNaN_same h hd] at hs
        exact ih _ _ (h.fitStep hs)

end

/-- C128, in part. If nothing is missing, fitting is the fitting all other properties speak about, whatever number is taken for NaN. -/
theorem C128_none_missing_partial (nan : K) (R : Rng K G) (mem : Nat → Junk K) (A : TreeArgs K) (glob : Glob G)
    (hs : A.cfg.splitter = .best) (hd : ∀ row ∈ A.data, ∀ v ∈ row, v < nan) :
    runTreeNaN nan R mem A.cfg A.data A.labels A.disc A.budget A.seed A.idcs A.feats glob = runTree R mem A glob := by
  unfold runTreeNaN runTree
  cases h0 : Tree.init R A.cfg A.data A.labels A.disc A.budget A.seed A.idcs A.feats with
  | error e => rfl
  | ok p =>
    obtain ⟨t0, g0⟩ := p
    have hc : Constructed R A t0 := ⟨g0, h0⟩
    simp only [Bind.bind, Except.bind]
    unfold Tree.fit bothOrNeither
    dsimp only
    cases hm : maybeDiscrete t0.cfg.makeDiscrete t0.data t0.discrete with
    | error e => rfl
    | ok dd =>
      have hst := (hc.start dd).1
      have hsp : t0.cfg.splitter = .best := by
        have := hst.cfg
        simp only [] at this
        rw [this]
        exact hs
      dsimp only
      rw [hsp]
      dsimp only
      rw [fitLoopNaN_same (A := A) hd _ _ _ (NInv.start hst)]
      cases fitLoop R mem _ _ glob with
      | error e => rfl
      | ok q => rfl

/-! ### Rows are lost, and fits that raise -/

/-- One column, the value of the last row is missing (`100` stands for NaN). -/
def exMissing : TreeArgs ℚ :=
  { exArgs with cfg := cfgQr, data := [[1], [2], [3], [4], [100]], labels := [1, 1, 9, 9, 1] }

/-- One column, the values of the last two rows are missing, and the targets of just these rows are different. -/
def exMissingAlone : TreeArgs ℚ :=
  { exArgs with cfg := cfgQr, data := [[1], [2], [3], [100], [100]], labels := [1, 1, 1, 9, 9] }

/-- The tree fitted to `A`. -/
def runNaN (A : TreeArgs ℚ) : Except Err (Tree ℚ Nat) :=
  runTreeNaN 100 rngQ exMem A.cfg A.data A.labels A.disc A.budget A.seed A.idcs A.feats exGlob

/-- The tree of `exMissing` tests whether the value is at most 2, and its leaves hold the rows 0, 1 and 2, 3. The last row is in no leaf.
Asked about this row, the tree answers 9 (its target was 1): a missing value now goes to the right. -/
example : ((runNaN exMissing).toOption.map (fun (t : Tree ℚ Nat) =>
      (t.nodes.map (fun (nd : Node ℚ) => (nd.splitFeature, nd.splitValue, nd.left, nd.right, nd.idcs)),
        (t.predictX [.nan]).toOption.map Prod.fst)) ==
    some ([(some 0, 2, some 1, some 2, [0, 1, 2, 3, 4]), (none, 0, none, none, [0, 1]), (none, 0, none, none, [2, 3])],
      some (.reg 9))) = true := by
  decide +kernel

theorem exMissing_fitted : ∃ t : Tree ℚ Nat, FittedNaN 100 rngQ exMem exMissing t ∧
    t.nodes.all (fun (nd : Node ℚ) => decide (nd.left = none → 4 ∉ nd.idcs)) = true := by
  have h : (runNaN exMissing).toOption.any (fun (t : Tree ℚ Nat) =>
      t.nodes.all (fun (nd : Node ℚ) => decide (nd.left = none → 4 ∉ nd.idcs))) = true := by decide +kernel
  rw [Option.any_eq_true] at h
  obtain ⟨t, ht, hp⟩ := h
  cases hr : runNaN exMissing with
  | error e => rw [hr] at ht; cases ht
  | ok t' =>
    rw [hr] at ht
    cases ht
    exact ⟨t, ⟨⟨exGlob, hr⟩, rfl, by decide +kernel⟩, hp⟩

/-- The full C128 is false: a training row with a missing value can be in no leaf, although it was counted when the split was chosen. -/
theorem C128_refuted : ¬ ∀ (nan : ℚ) (R : Rng ℚ Nat) (mem : Nat → Junk ℚ) (A : TreeArgs ℚ) (t : Tree ℚ Nat), FittedNaN nan R mem A t →
    ∀ i ∈ A.rows, ∃ leaf, IsLeaf t leaf ∧ i ∈ rowsOf t leaf := by
  intro h
  obtain ⟨t, ht, hp⟩ := exMissing_fitted
  obtain ⟨leaf, ⟨_, nd, hn, hl, _⟩, hi⟩ := h 100 rngQ exMem exMissing t ht 4 (by decide +kernel)
  rw [List.all_eq_true] at hp
  have := hp nd (List.mem_of_getElem? hn)
  rw [decide_eq_true_eq] at this
  apply this hl
  unfold rowsOf at hi
  rw [show t.nodes[leaf]? = some nd from hn] at hi
  exact hi

/-- Nor does `fit` always return: if the best split separates the missing values from the others, then there is nothing on its right and
`fit` raises. With a number in their place it returns. -/
theorem C128_refuted_fit :
    runNaN exMissingAlone = .error (.attributeError "Wrong split!!") ∧
    ((runTree rngQ exMem exMissingAlone exGlob).toOption.isSome = true) := by
  have h : (match runNaN exMissingAlone with
      | .error (.attributeError s) => decide (s = "Wrong split!!")
      | _ => false) = true := by decide +kernel
  refine ⟨?_, by decide +kernel⟩
  split at h
  · rename_i s hs
    rw [hs, of_decide_eq_true h]
  · cases h

/-- Nothing missing in the data of the examples. -/
example : exArgsReg.cfg.splitter = .best ∧ (∀ row ∈ exArgsReg.data, ∀ v ∈ row, v < 100) := by
  decide +kernel

end FF
