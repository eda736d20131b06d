import Verif.Proofs.Counts

/-!
# Predictions of a tree
-/

namespace FF

open Spec

set_option linter.unusedSectionVars false

variable {K : Type} [Field K] [LinearOrder K] [IsStrictOrderedRing K] [FloorRing K] [NpFun K] {G : Type}

/-- The answer of a leaf without looking at its cache. -/
def nodePred (cfg : TreeCfg K) (nd : Node K) : Except Err (Pred K) :=
  if cfg.isCls then
    if nd.counts.sum = 0 then .error (.assertion "Probabilities don't sum to 1")
    else
      match npArgmax (nd.counts.map (fun (c : Nat) => (c : K) / ((nd.counts.sum : Nat) : K))) with
      | none => .error .valueError
      | some i =>
        match idxToClass cfg.classes i with
        | none => .error .keyError
        | some l => .ok (.cls l (nd.counts.map (fun (c : Nat) => (c : K) / ((nd.counts.sum : Nat) : K))))
  else
    match nd.labels with
    | none => .error (.attributeError "labels")
    | some [] => .error (.unmodelled "mean of an empty leaf")
    | some ls => .ok (.reg (npMean ls))

/-- `predict` without caches. -/
def purePredict (t : Tree K G) (x : List K) : Except Err (Pred K) :=
  match walk t.nodes x t.nodes.length 0 with
  | .error e => .error e
  | .ok id =>
    match t.nodes[id]? with
    | none => .error .indexError
    | some nd => nodePred t.cfg nd

/-- `nd'` is `nd` with correct caches. -/
structure CacheNode (cfg : TreeCfg K) (nd nd' : Node K) : Prop where
  eq : nd' = { nd with cacheCls := nd'.cacheCls, cacheReg := nd'.cacheReg }
  cls : cfg.isCls = true → ∀ l p, nd'.cacheCls = some (l, p) → nodePred cfg nd = .ok (.cls l p)
  reg : cfg.isCls = false → ∀ v, nd'.cacheReg = some v → nodePred cfg nd = .ok (.reg v)

/-- `t'` is `t` with some predictions cached. -/
structure CacheOf (t t' : Tree K G) : Prop where
  cfg : t'.cfg = t.cfg
  eq : t' = { t with nodes := t'.nodes }
  len : t'.nodes.length = t.nodes.length
  nodes : ∀ (id : Nat) (nd nd' : Node K), t.nodes[id]? = some nd → t'.nodes[id]? = some nd' → CacheNode t.cfg nd nd'

theorem CacheOf.refl {t : Tree K G} (h : ∀ (id : Nat) (nd : Node K), t.nodes[id]? = some nd → nd.cacheCls = none ∧ nd.cacheReg = none) :
    CacheOf t t := by
  refine ⟨rfl, rfl, rfl, ?_⟩
  intro id nd nd' h1 h2
  obtain rfl := Option.some.inj (h1.symm.trans h2)
  obtain ⟨a, b⟩ := h _ _ h1
  exact ⟨rfl, fun _ l p hc => (by rw [a] at hc; cases hc), fun _ v hc => (by rw [b] at hc; cases hc)⟩

theorem walk_cache {t t' : Tree K G} (h : CacheOf t t') (x : List K) (fuel id : Nat) : walk t'.nodes x fuel id = walk t.nodes x fuel id := by
  induction fuel generalizing id with
  | zero => rfl
  | succ fuel ih =>
    unfold walk
    cases h1 : t.nodes[id]? with
    | none =>
      have : t'.nodes[id]? = none := by
        rw [List.getElem?_eq_none_iff] at h1 ⊢
        rw [h.len]; exact h1
      rw [this]
    | some nd =>
      obtain ⟨nd', h2⟩ : ∃ nd', t'.nodes[id]? = some nd' := by
        have := (List.getElem?_eq_some_iff.1 h1).1
        rw [← h.len] at this
        exact ⟨_, List.getElem?_eq_getElem this⟩
      rw [h2]
      have hc := (h.nodes _ _ _ h1 h2).eq
      have e1 : nd'.left = nd.left := by rw [hc]
      have e2 : nd'.right = nd.right := by rw [hc]
      have e3 : nd'.splitFeature = nd.splitFeature := by rw [hc]
      have e4 : nd'.splitValue = nd.splitValue := by rw [hc]
      simp only [e1, e2, e3, e4, ih]

theorem CacheOf.set {t t' : Tree K G} (h : CacheOf t t') {id : Nat} {nd nd' nd'' : Node K} (h1 : t.nodes[id]? = some nd)
    (h2 : t'.nodes[id]? = some nd') (hc : CacheNode t.cfg nd nd'') : CacheOf t { t' with nodes := t'.nodes.set id nd'' } := by
  refine ⟨h.cfg, ?_, ?_, ?_⟩
  · have := h.eq
    rw [this]
  · simp only [List.length_set]
    exact h.len
  · intro j a b ha hb
    simp only at hb
    by_cases hj : id = j
    · subst hj
      rw [getElem?_set_eq h2] at hb
      obtain rfl := Option.some.inj hb
      obtain rfl := Option.some.inj (h1.symm.trans ha)
      exact hc
    · rw [List.getElem?_set_ne hj] at hb
      exact h.nodes j a b ha hb

/-- `predict` answers as without caches and keeps the caches correct. -/
theorem predict_cache {t t' : Tree K G} (h : CacheOf t t') (x : List K) :
    (t'.predict x).map Prod.fst = purePredict t x ∧ ∀ p t2, t'.predict x = .ok (p, t2) → CacheOf t t2 := by
  obtain ⟨ns, rfl⟩ : ∃ ns, t' = { t with nodes := ns } := ⟨_, h.eq⟩
  unfold Tree.predict purePredict
  simp only []
  have hlen := h.len
  simp only [] at hlen
  have hwc := walk_cache h
  simp only [] at hwc
  rw [hlen, hwc]
  cases hw : walk t.nodes x t.nodes.length 0 with
  | error e => exact ⟨rfl, fun p t2 hh => by cases hh⟩
  | ok id =>
    simp only []
    cases h1 : t.nodes[id]? with
    | none =>
      have : ns[id]? = none := by
        rw [List.getElem?_eq_none_iff] at h1 ⊢
        rw [hlen]; exact h1
      rw [this]
      exact ⟨rfl, fun p t2 hh => by cases hh⟩
    | some nd =>
      obtain ⟨nd', h2⟩ : ∃ nd', ns[id]? = some nd' := by
        have := (List.getElem?_eq_some_iff.1 h1).1
        rw [← hlen] at this
        exact ⟨_, List.getElem?_eq_getElem this⟩
      rw [h2]
      simp only []
      have hc := h.nodes _ _ _ h1 h2
      obtain ⟨c1, c2, rfl⟩ : ∃ c1 c2, nd' = { nd with cacheCls := c1, cacheReg := c2 } := ⟨_, _, hc.eq⟩
      simp only []
      cases hcls : t.cfg.isCls with
      | true =>
        rw [if_pos rfl]
        rcases c1 with _ | ⟨l, p⟩
        · simp only []
          by_cases hs : nd.counts.sum = 0
          · rw [if_pos hs]
            constructor
            · unfold nodePred
              rw [hcls, if_pos rfl, if_pos hs]
              rfl
            · intro p t2 hh
              cases hh
          · rw [if_neg hs]
            cases ha : npArgmax (nd.counts.map (fun (c : Nat) => (c : K) / ((nd.counts.sum : Nat) : K))) with
            | none =>
              refine ⟨?_, fun p t2 hh => by cases hh⟩
              unfold nodePred
              rw [hcls, if_pos rfl, if_neg hs, ha]
              rfl
            | some i =>
              simp only []
              cases hi : idxToClass t.cfg.classes i with
              | none =>
                refine ⟨?_, fun p t2 hh => by cases hh⟩
                unfold nodePred
                rw [hcls, if_pos rfl, if_neg hs, ha]
                simp only [hi]
                rfl
              | some l =>
                have hp : nodePred t.cfg nd = .ok (.cls l (nd.counts.map (fun (c : Nat) => (c : K) / ((nd.counts.sum : Nat) : K)))) := by
                  unfold nodePred
                  rw [hcls, if_pos rfl, if_neg hs, ha]
                  simp only [hi]
                refine ⟨hp.symm, ?_⟩
                intro p t2 hh
                simp only [Except.ok.injEq, Prod.mk.injEq] at hh
                obtain ⟨_, rfl⟩ := hh
                refine h.set h1 h2 ⟨?_, ?_, ?_⟩
                · rfl
                · intro _ l' p' hl
                  simp only [Option.some.injEq, Prod.mk.injEq] at hl
                  rw [hp, hl.1, hl.2]
                · intro hf
                  rw [hcls] at hf
                  cases hf
        · have hp := hc.cls hcls l p rfl
          simp only []
          refine ⟨hp.symm, ?_⟩
          intro p' t2 hh
          simp only [Except.ok.injEq, Prod.mk.injEq] at hh
          rw [← hh.2]
          exact h
      | false =>
        rw [if_neg (by simp)]
        rcases c2 with _ | v
        · simp only []
          have hp : nodePred t.cfg nd = match nd.labels with
              | none => .error (.attributeError "labels")
              | some [] => .error (.unmodelled "mean of an empty leaf")
              | some ls => .ok (.reg (npMean ls)) := by
            unfold nodePred
            rw [hcls, if_neg (by simp)]
          rw [hp]
          rcases hl : nd.labels with _ | ls
          · exact ⟨rfl, fun p t2 hh => by cases hh⟩
          · rcases ls with _ | ⟨y, ys⟩
            · exact ⟨rfl, fun p t2 hh => by cases hh⟩
            · refine ⟨rfl, ?_⟩
              intro p t2 hh
              simp only [Except.ok.injEq, Prod.mk.injEq] at hh
              obtain ⟨_, rfl⟩ := hh
              refine h.set h1 h2 ⟨?_, ?_, ?_⟩
              · rw [← hl]
              · intro hf
                rw [hcls] at hf
                cases hf
              · intro _ v hv
                rw [hp, hl]
                simp only [Option.some.injEq] at hv
                subst hv
                rfl
        · have hp := hc.reg hcls v rfl
          simp only []
          refine ⟨hp.symm, ?_⟩
          intro p' t2 hh
          simp only [Except.ok.injEq, Prod.mk.injEq] at hh
          rw [← hh.2]
          exact h

theorem AfterPredicts.cache {t t0 t1 : Tree K G} (h0 : CacheOf t t0) (h : AfterPredicts t0 t1) : CacheOf t t1 := by
  induction h with
  | none => exact h0
  | call _ hp ih => exact (predict_cache ih _).2 _ _ hp

/-! ### Routing -/

theorem walk_routes {t : Tree K G} {x : List K} {fuel id leaf : Nat} (h : walk t.nodes x fuel id = .ok leaf) : Routes t x id leaf := by
  induction fuel generalizing id with
  | zero => cases h
  | succ fuel ih =>
    unfold walk at h
    cases hn : t.nodes[id]? with
    | none => rw [hn] at h; cases h
    | some nd =>
      rw [hn] at h
      simp only [] at h
      rcases hl : nd.left with _ | l
      · rw [hl] at h
        simp only [] at h
        by_cases hr : nd.right = none
        · rw [if_pos hr] at h
          cases h
          exact .stop hn hl hr
        · rw [if_neg hr] at h
          cases h
      · rw [hl] at h
        simp only [] at h
        rcases hf : nd.splitFeature with _ | f
        · rw [hf] at h; cases h
        · rw [hf] at h
          simp only [] at h
          rcases hx : x[f]? with _ | v
          · rw [hx] at h; cases h
          · rw [hx] at h
            simp only [] at h
            by_cases hv : v ≤ nd.splitValue
            · rw [if_pos hv] at h
              exact .left hn hl hf hx hv (ih h)
            · rw [if_neg hv] at h
              rcases hr : nd.right with _ | r
              · rw [hr] at h; cases h
              · rw [hr] at h
                exact .right hn hr hf hx (not_le.1 hv) (ih h)

theorem routes_walk {data : List (List K)} {rows : List Nat} {t : Tree K G} (hs : TShape data rows t) {x : List K} {id leaf : Nat}
    (h : Routes t x id leaf) : ∀ fuel, t.nodes.length ≤ fuel + id → walk t.nodes x fuel id = .ok leaf := by
  induction h with
  | stop hn hl hr =>
    intro fuel hfuel
    have := nodeAt_lt hn
    obtain ⟨k, rfl⟩ : ∃ k, fuel = k + 1 := ⟨fuel - 1, by omega⟩
    unfold walk
    rw [show t.nodes[_]? = some _ from hn]
    simp only [hl, hr, if_true]
  | @left id l leaf f v nd hn hl hf hx hv _ ih =>
    intro fuel hfuel
    have := nodeAt_lt hn
    obtain ⟨k, rfl⟩ : ∃ k, fuel = k + 1 := ⟨fuel - 1, by omega⟩
    have hlt : id < l := by
      rcases hs.links _ _ hn with ⟨h1, _⟩ | ⟨l', r', _, _, h1, _, h3, _⟩
      · rw [hl] at h1; cases h1
      · rw [hl] at h1; cases h1; exact h3
    unfold walk
    rw [show t.nodes[_]? = some _ from hn]
    simp only [hl, hf, hx, if_pos hv]
    exact ih k (by omega)
  | @right id r leaf f v nd hn hr hf hx hv _ ih =>
    intro fuel hfuel
    have := nodeAt_lt hn
    obtain ⟨k, rfl⟩ : ∃ k, fuel = k + 1 := ⟨fuel - 1, by omega⟩
    rcases hs.links _ _ hn with ⟨_, h1⟩ | ⟨l', r', _, _, h1, h2, _, h4, _⟩
    · rw [hr] at h1; cases h1
    rw [hr] at h2; cases h2
    unfold walk
    rw [show t.nodes[_]? = some _ from hn]
    simp only [h1, hf, hx, if_neg (not_le.2 hv), hr]
    exact ih k (by omega)

theorem Routes.det {data : List (List K)} {rows : List Nat} {t : Tree K G} (hs : TShape data rows t) {x : List K} {leaf leaf' : Nat}
    (h : Routes t x 0 leaf) (h' : Routes t x 0 leaf') : leaf = leaf' := by
  have h1 := routes_walk hs h t.nodes.length (by omega)
  rw [routes_walk hs h' t.nodes.length (by omega)] at h1
  cases h1
  rfl

theorem Routes.isLeaf {t : Tree K G} {x : List K} {id leaf : Nat} (h : Routes t x id leaf) (hid : InTree t id) : IsLeaf t leaf := by
  induction h with
  | stop hn hl hr => exact ⟨hid, _, hn, hl, hr⟩
  | left hn hl _ _ _ _ ih => exact ih (.left hid hn hl)
  | right hn hr _ _ _ _ ih => exact ih (.right hid hn hr)

section
variable {R : Rng K G} {mem : Nat → Junk K} {A : TreeArgs K} {t : Tree K G} {dd : DiscDict K} {t0 : Tree K G}

/-- A point that has all columns of the tree reaches a leaf. -/
theorem GrowFacts.routes_total (h : GrowFacts R mem A dd t0 t) {x : List K} (hx : ∀ f ∈ A.cols, f < x.length) :
    ∀ (k id : Nat), t.nodes.length - id ≤ k → id < t.nodes.length → ∃ leaf, Routes t x id leaf := by
  intro k
  induction k with
  | zero => intro id h1 h2; omega
  | succ k ih =>
    intro id hk hid
    obtain ⟨nd, hn⟩ := nodeAt_of_lt hid
    rcases h.shape.links _ _ hn with ⟨h1, h2⟩ | ⟨l, r, nl, nr, h1, h2, h3, h4, _, h6, h7, h8⟩
    · exact ⟨id, .stop hn h1 h2⟩
    · obtain ⟨f, hf, hff, _⟩ := h8.feat
      have hfx := hx f ((h.nodes _ _ hn).feats_sub f hff)
      by_cases hv : x[f] ≤ nd.splitValue
      · obtain ⟨leaf, hl⟩ := ih l (by omega) (nodeAt_lt h6)
        exact ⟨leaf, .left hn h1 hf (List.getElem?_eq_getElem hfx) hv hl⟩
      · obtain ⟨leaf, hl⟩ := ih r (by omega) (nodeAt_lt h7)
        exact ⟨leaf, .right hn h2 hf (List.getElem?_eq_getElem hfx) (not_le.1 hv) hl⟩

/-- A training row goes from a node that holds it to a leaf that holds it. -/
theorem GrowFacts.routes_row (h : GrowFacts R mem A dd t0 t) {i : Nat} :
    ∀ (k id : Nat) (nd : Node K), t.nodes.length - id ≤ k → NodeAt t id nd → i ∈ nd.idcs →
      ∃ leaf, Routes t (A.data.getD i []) id leaf ∧ i ∈ rowsOf t leaf := by
  intro k
  induction k with
  | zero => intro id nd h1 h2; have := nodeAt_lt h2; omega
  | succ k ih =>
    intro id nd hk hn hi
    have hid := nodeAt_lt hn
    rcases h.shape.links _ _ hn with ⟨h1, h2⟩ | ⟨l, r, nl, nr, h1, h2, h3, h4, _, h6, h7, h8⟩
    · refine ⟨id, .stop hn h1 h2, ?_⟩
      unfold rowsOf
      rw [show t.nodes[id]? = some nd from hn]
      exact hi
    · obtain ⟨f, hf, hff, hl, hr⟩ := h8.feat
      have hfx := ((h.nodes _ _ hn).rows_lt i hi).2 f hff
      have hget : (A.data.getD i [])[f]? = some ((A.data.getD i []).getD f 0) := by
        rw [List.getElem?_eq_getElem hfx, List.getD_eq_getElem _ _ hfx]
      by_cases hv : (A.data.getD i []).getD f 0 ≤ nd.splitValue
      · obtain ⟨leaf, hl1, hl2⟩ := ih l nl (by omega) h6 (by rw [hl]; exact List.mem_filter.2 ⟨hi, by simpa using hv⟩)
        exact ⟨leaf, .left hn h1 hf hget hv hl1, hl2⟩
      · obtain ⟨leaf, hl1, hl2⟩ := ih r nr (by omega) h7 (by rw [hr]; exact List.mem_filter.2 ⟨hi, by simpa using hv⟩)
        exact ⟨leaf, .right hn h2 hf hget (not_le.1 hv) hl1, hl2⟩

/-- Going up: a node that holds a training row is on the path of that row. -/
theorem GrowFacts.routes_up (h : GrowFacts R mem A dd t0 t) {i : Nat} :
    ∀ (id : Nat) (nd : Node K) (leaf : Nat), NodeAt t id nd → i ∈ nd.idcs → Routes t (A.data.getD i []) id leaf →
      Routes t (A.data.getD i []) 0 leaf := by
  intro id
  induction id using Nat.strong_induction_on with
  | _ id ih =>
    intro nd leaf hn hi hr
    rcases Nat.eq_zero_or_pos id with rfl | hpos
    · exact hr
    obtain ⟨p, pn, h1, h2, h3⟩ := h.shape.parents id hpos (nodeAt_lt hn)
    rcases h.shape.links _ _ h2 with ⟨a1, a2⟩ | ⟨l, r, nl, nr, a1, a2, _, _, _, a6, a7, a8⟩
    · rw [a1, a2] at h3
      rcases h3 with h3 | h3 <;> cases h3
    obtain ⟨f, hf, hff, hli, hri⟩ := a8.feat
    rcases h3 with h3 | h3
    · rw [h3] at a1; cases a1
      obtain rfl := Option.some.inj (a6.symm.trans hn)
      rw [hli, List.mem_filter] at hi
      have hfx := ((h.nodes _ _ h2).rows_lt i hi.1).2 f hff
      have hget : (A.data.getD i [])[f]? = some ((A.data.getD i []).getD f 0) := by
        rw [List.getElem?_eq_getElem hfx, List.getD_eq_getElem _ _ hfx]
      exact ih p h1 pn leaf h2 hi.1 (.left h2 h3 hf hget (by simpa using hi.2) hr)
    · rw [h3] at a2; cases a2
      obtain rfl := Option.some.inj (a7.symm.trans hn)
      rw [hri, List.mem_filter] at hi
      have hfx := ((h.nodes _ _ h2).rows_lt i hi.1).2 f hff
      have hget : (A.data.getD i [])[f]? = some ((A.data.getD i []).getD f 0) := by
        rw [List.getElem?_eq_getElem hfx, List.getD_eq_getElem _ _ hfx]
      exact ih p h1 pn leaf h2 hi.1 (.right h2 h3 hf hget (by simpa using hi.2) hr)

theorem GrowFacts.cache (h : GrowFacts R mem A dd t0 t) : CacheOf t t :=
  .refl (fun _ _ hn => (h.nodes _ _ hn).cache)

/-- The answer of a classification leaf. -/
theorem GrowFacts.nodePred_cls (h : GrowFacts R mem A dd t0 t) (hc : A.cfg.isCls = true) (hd : ClassesOK A.cfg.classes) {leaf : Nat}
    {nd : Node K} (hn : NodeAt t leaf nd) {p : Pred K} (hp : nodePred t.cfg nd = .ok p) :
    ∃ label i, p = .cls label (A.cfg.classes.map (fun c => freq (labelsOf A.labels nd.idcs) c.1)) ∧
      nd.idcs ≠ [] ∧ (∀ y ∈ labelsOf A.labels nd.idcs, y ∈ A.cfg.classes.map Prod.fst) ∧
      A.cfg.classes[i]? = some (label, i) ∧
      ∀ (j : Nat) (c : K × Nat), A.cfg.classes[j]? = some c →
        freq (labelsOf A.labels nd.idcs) c.1 ≤ freq (labelsOf A.labels nd.idcs) label ∧
        (j < i → freq (labelsOf A.labels nd.idcs) c.1 < freq (labelsOf A.labels nd.idcs) label) := by
  have hcfg := h.cfg_eq
  have e1 : t.cfg.isCls = A.cfg.isCls := by rw [hcfg]
  have e2 : t.cfg.classes = A.cfg.classes := by rw [hcfg]
  have hcounts := (h.nodes _ _ hn).counts_cls (by rw [e1]; exact hc)
  rw [e2] at hcounts
  obtain ⟨hce, hmem⟩ := countsOfLabels_spec hd hcounts
  have hsum : nd.counts.sum = (labelsOf A.labels nd.idcs).length := by
    rw [hce]
    have := sum_count_eq_length (A.cfg.classes.map Prod.fst) hd.1 _ hmem
    rw [List.map_map] at this
    exact this
  have hprobs : nd.counts.map (fun (c : Nat) => (c : K) / ((nd.counts.sum : Nat) : K)) =
      A.cfg.classes.map (fun c => freq (labelsOf A.labels nd.idcs) c.1) := by
    rw [hsum, hce, List.map_map]
    rfl
  unfold nodePred at hp
  rw [e1, hc, if_pos rfl] at hp
  by_cases hs : nd.counts.sum = 0
  · rw [if_pos hs] at hp; cases hp
  rw [if_neg hs, hprobs, e2] at hp
  cases ha : npArgmax (A.cfg.classes.map (fun c => freq (labelsOf A.labels nd.idcs) c.1)) with
  | none => rw [ha] at hp; cases hp
  | some i =>
    rw [ha] at hp
    simp only [] at hp
    cases hi : idxToClass A.cfg.classes i with
    | none => rw [hi] at hp; cases hp
    | some l =>
      rw [hi] at hp
      cases hp
      have hdi := (hd.idxToClass i l).1 hi
      obtain ⟨m, hm1, hm2⟩ := npArgmax_spec ha
      rw [List.getElem?_map, hdi] at hm1
      obtain rfl := Option.some.inj hm1
      refine ⟨l, i, rfl, ?_, hmem, hdi, ?_⟩
      · rintro he
        rw [he] at hsum
        exact hs hsum
      · intro j c hj
        exact hm2 j _ (by rw [List.getElem?_map, hj]; rfl)

theorem GrowFacts.nodePred_reg (h : GrowFacts R mem A dd t0 t) (hc : A.cfg.isCls = false) {leaf : Nat}
    {nd : Node K} (hn : NodeAt t leaf nd) (hl : nd.left = none) {p : Pred K} (hp : nodePred t.cfg nd = .ok p) :
    p = .reg (mean (labelsOf A.labels nd.idcs)) ∧ nd.idcs ≠ [] := by
  have e1 : t.cfg.isCls = A.cfg.isCls := by rw [h.cfg_eq]
  unfold nodePred at hp
  rw [e1, hc, if_neg (by simp), (h.nodes _ _ hn).open_labels hl] at hp
  cases hy : labelsOf A.labels nd.idcs with
  | nil => rw [hy] at hp; cases hp
  | cons y ys =>
    rw [hy] at hp
    cases hp
    refine ⟨rfl, ?_⟩
    intro he
    rw [he] at hy
    cases hy

theorem GrowFacts.nodePred_total (h : GrowFacts R mem A dd t0 t) (hd : A.cfg.isCls = true → ClassesOK A.cfg.classes) {leaf : Nat}
    {nd : Node K} (hn : NodeAt t leaf nd) (hl : nd.left = none) (hne : nd.idcs ≠ []) : ∃ p, nodePred t.cfg nd = .ok p := by
  have hcfg := h.cfg_eq
  have e1 : t.cfg.isCls = A.cfg.isCls := by rw [hcfg]
  have e2 : t.cfg.classes = A.cfg.classes := by rw [hcfg]
  unfold nodePred
  rw [e1]
  cases hc : A.cfg.isCls with
  | false =>
    rw [if_neg (by simp), (h.nodes _ _ hn).open_labels hl]
    cases hy : labelsOf A.labels nd.idcs with
    | nil =>
      exact absurd (List.map_eq_nil_iff.1 hy) hne
    | cons y ys => exact ⟨_, rfl⟩
  | true =>
    have hd := hd hc
    have hcounts := (h.nodes _ _ hn).counts_cls (by rw [e1]; exact hc)
    rw [e2] at hcounts
    obtain ⟨hce, hmem⟩ := countsOfLabels_spec hd hcounts
    have hsum : nd.counts.sum = (labelsOf A.labels nd.idcs).length := by
      rw [hce]
      have := sum_count_eq_length (A.cfg.classes.map Prod.fst) hd.1 _ hmem
      rw [List.map_map] at this
      exact this
    have hlen : (labelsOf A.labels nd.idcs).length = nd.idcs.length := List.length_map ..
    have hpos : nd.counts.sum ≠ 0 := by
      rw [hsum, hlen]
      exact fun e => hne (List.length_eq_zero_iff.1 e)
    rw [if_pos rfl, if_neg hpos]
    have hnn : nd.counts.map (fun (c : Nat) => (c : K) / ((nd.counts.sum : Nat) : K)) ≠ [] := by
      intro e
      rw [List.map_eq_nil_iff.1 e] at hpos
      exact hpos rfl
    obtain ⟨i, hi⟩ := npArgmax_total hnn
    obtain ⟨m, hm, _⟩ := npArgmax_spec hi
    have hlt := (List.getElem?_eq_some_iff.1 hm).1
    rw [List.length_map, hce, List.length_map] at hlt
    have hci : A.cfg.classes[i]? = some (A.cfg.classes[i].1, i) := by
      rw [List.getElem?_eq_getElem hlt]
      have := hd.snd (List.getElem?_eq_getElem hlt)
      exact congrArg some (Prod.ext rfl this)
    have := (hd.idxToClass i _).2 hci
    rw [hi, e2]
    simp only [this]
    exact ⟨_, rfl⟩

end

/-- The mean of a non-empty list lies between any bounds of its entries. -/
theorem mean_between {ys : List K} (hne : ys ≠ []) {lo hi : K} (h : ∀ y ∈ ys, lo ≤ y ∧ y ≤ hi) : lo ≤ mean ys ∧ mean ys ≤ hi := by
  have hpos : (0 : K) < ys.length := by
    exact_mod_cast List.length_pos_iff.2 hne
  have h1 : ∀ l : List K, (∀ y ∈ l, lo ≤ y ∧ y ≤ hi) → lo * l.length ≤ l.sum ∧ l.sum ≤ hi * l.length := by
    intro l
    induction l with
    | nil => intro _; simp
    | cons a l ih =>
      intro hl
      obtain ⟨i1, i2⟩ := ih (fun y hy => hl y (List.mem_cons_of_mem _ hy))
      obtain ⟨j1, j2⟩ := hl a List.mem_cons_self
      simp only [List.sum_cons, List.length_cons, Nat.cast_add, Nat.cast_one]
      constructor <;> nlinarith
  obtain ⟨h2, h3⟩ := h1 ys h
  unfold mean
  rw [le_div_iff₀ hpos, div_le_iff₀ hpos]
  exact ⟨h2, h3⟩

end FF
