import Verif.Spec.Answers
import Verif.Props.OneTree

/-!
# The caller owns the answers (C122)
-/

namespace FF

open Spec

set_option linter.unusedSectionVars false

variable {K : Type} [Field K] [LinearOrder K] [IsStrictOrderedRing K] [FloorRing K] [NpFun K] {G : Type}

/-- What holds in every state that can be reached: `t0` is the tree as it was grown. -/
structure ShareInv (scribble : Bool) (t0 : Tree K G) (t : SharedTree K G) (h : List (List K)) (own : List Nat) : Prop where
  cache : CacheOf t0 t.base
  bound : ∀ a ∈ own, a < h.length
  probs : ∀ (id : Nat) (l : K) (a : Nat), t.probs id = some (l, a) → a < h.length ∧ a ∉ own ∧
    ∃ (nd : Node K) (p : List K), t0.nodes[id]? = some nd ∧ nodePred t0.cfg nd = .ok (.cls l p) ∧ (scribble = false → h[a]? = some p)

theorem ShareInv.grow {s : Bool} {t0 : Tree K G} {t : SharedTree K G} {h h' : List (List K)} {own own' : List Nat}
    (hi : ShareInv s t0 t h own) (hh : h <+: h') (ho : ∀ a ∈ own', a < h'.length ∧ (a ∈ own ∨ h.length ≤ a)) :
    ShareInv s t0 t h' own' := by
  refine ⟨hi.cache, fun a ha => (ho a ha).1, ?_⟩
  intro id l a hp
  obtain ⟨h1, h2, nd, p, h3, h4, h5⟩ := hi.probs id l a hp
  refine ⟨lt_of_lt_of_le h1 hh.length_le, ?_, nd, p, h3, h4, fun hs => ?_⟩
  · intro ha
    rcases (ho a ha).2 with h6 | h6
    · exact h2 h6
    · omega
  · obtain ⟨r, rfl⟩ := hh
    rw [List.getElem?_append_left h1]
    exact h5 hs

theorem ShareInv.write {s : Bool} {t0 : Tree K G} {t : SharedTree K G} {h : List (List K)} {own : List Nat}
    (hi : ShareInv s t0 t h own) {a : Nat} (ha : a ∈ own ∨ s = true) (p : List K) : ShareInv s t0 t (h.set a p) own := by
  refine ⟨hi.cache, fun b hb => by rw [List.length_set]; exact hi.bound b hb, ?_⟩
  intro id l b hp
  obtain ⟨h1, h2, nd, q, h3, h4, h5⟩ := hi.probs id l b hp
  refine ⟨by rw [List.length_set]; exact h1, h2, nd, q, h3, h4, fun hs => ?_⟩
  rcases ha with ha | ha
  · have hne : a ≠ b := by
      rintro rfl
      exact h2 ha
    rw [List.getElem?_set_ne hne]
    exact h5 hs
  · rw [hs] at ha; cases ha

/-- One call of `predict`. -/
theorem ShareInv.predict {s : Bool} {t0 : Tree K G} {t : SharedTree K G} {h : List (List K)} {own : List Nat}
    (hi : ShareInv s t0 t h own) (x : List K) :
    (∃ e, t.predict h x = .error e ∧ purePredict t0 x = .error e) ∨
    ∃ a t' h' p, t.predict h x = .ok (a, t', h') ∧ purePredict t0 x = .ok p ∧ a.number = p.number ∧
      (s = false ∨ t0.cfg.isCls = false → a.read h' = p) ∧ h <+: h' ∧ (∀ b ∈ a.arrays, b < h'.length) ∧ ShareInv s t0 t' h' own := by
  have hc := hi.cache
  have hw := walk_cache hc x t0.nodes.length 0
  unfold SharedTree.predict
  rw [hc.len, hw]
  cases hw0 : walk t0.nodes x t0.nodes.length 0 with
  | error e =>
    refine .inl ⟨e, rfl, ?_⟩
    unfold purePredict
    rw [hw0]
  | ok id =>
    simp only []
    have hpure : ∀ nd : Node K, t0.nodes[id]? = some nd → purePredict t0 x = nodePred t0.cfg nd := by
      intro nd hn
      unfold purePredict
      rw [hw0]
      simp only [hn]
    cases h1 : t0.nodes[id]? with
    | none =>
      have : t.base.nodes[id]? = none := by
        rw [List.getElem?_eq_none_iff] at h1 ⊢
        rw [hc.len]; exact h1
      rw [this]
      refine .inl ⟨_, rfl, ?_⟩
      unfold purePredict
      rw [hw0]
      simp only [h1]
    | some nd =>
      obtain ⟨nd', h2⟩ : ∃ nd', t.base.nodes[id]? = some nd' := by
        have := (List.getElem?_eq_some_iff.1 h1).1
        rw [← hc.len] at this
        exact ⟨_, List.getElem?_eq_getElem this⟩
      rw [h2]
      simp only []
      rw [hpure nd h1]
      have hcn := hc.nodes _ _ _ h1 h2
      have ecnt : nd'.counts = nd.counts := by rw [hcn.eq]
      by_cases hcls : t.base.cfg.isCls = true
      · have hcls0 : t0.cfg.isCls = true := by rw [← hc.cfg]; exact hcls
        rw [if_pos hcls]
        cases hpr : t.probs id with
        | some q =>
          obtain ⟨l, a⟩ := q
          obtain ⟨k1, k2, nd1, p, k3, k4, k5⟩ := hi.probs id l a hpr
          obtain rfl := Option.some.inj (h1.symm.trans k3)
          refine .inr ⟨_, _, _, .cls l p, rfl, k4, rfl, ?_, List.prefix_rfl, ?_, hi⟩
          · rintro (hs | hs)
            · simp only [Answer.read]
              rw [List.getD_eq_getElem?_getD, k5 hs]
              rfl
            · rw [hcls0] at hs; cases hs
          · intro b hb
            obtain rfl := List.mem_singleton.1 hb
            exact k1
        | none =>
          simp only []
          rw [ecnt, hc.cfg]
          unfold nodePred
          rw [if_pos hcls0]
          by_cases hz : nd.counts.sum = 0
          · rw [if_pos hz, if_pos hz]
            exact .inl ⟨_, rfl, rfl⟩
          · rw [if_neg hz, if_neg hz]
            cases hm : npArgmax (nd.counts.map (fun (c : Nat) => (c : K) / ((nd.counts.sum : Nat) : K))) with
            | none => exact .inl ⟨_, rfl, rfl⟩
            | some i =>
              simp only []
              cases hx : idxToClass t0.cfg.classes i with
              | none => exact .inl ⟨_, rfl, rfl⟩
              | some l =>
                simp only []
                refine .inr ⟨_, _, _, _, rfl, rfl, rfl, ?_, List.prefix_append _ _, ?_, ?_⟩
                · intro _
                  simp only [Answer.read]
                  simp
                · intro b hb
                  obtain rfl := List.mem_singleton.1 hb
                  simp
                · have hg := hi.grow (List.prefix_append h [nd.counts.map (fun (c : Nat) => (c : K) / ((nd.counts.sum : Nat) : K))])
                    (own' := own) (fun a ha => ⟨by rw [List.length_append]; have := hi.bound a ha; omega, .inl ha⟩)
                  refine ⟨hg.cache, hg.bound, ?_⟩
                  intro j l' a' hp
                  simp only [] at hp
                  by_cases hj : j = id
                  · rw [if_pos hj] at hp
                    simp only [Option.some.injEq, Prod.mk.injEq] at hp
                    obtain ⟨rfl, rfl⟩ := hp
                    refine ⟨by simp, fun ha => absurd (hi.bound _ ha) (lt_irrefl _), nd, _, hj ▸ h1, ?_, fun _ => List.getElem?_concat_length⟩
                    unfold nodePred
                    rw [if_pos hcls0, if_neg hz, hm]
                    simp only [hx]
                  · rw [if_neg hj] at hp
                    exact hg.probs j l' a' hp
      · have hcls0 : ¬ t0.cfg.isCls = true := by rw [← hc.cfg]; exact hcls
        rw [if_neg hcls]
        have hpc := predict_cache hc x
        have hpn := hpure nd h1
        rw [hpn] at hpc
        cases hq : t.base.predict x with
        | error e =>
          rw [hq] at hpc
          exact .inl ⟨e, rfl, hpc.1.symm⟩
        | ok r =>
          obtain ⟨p, t'⟩ := r
          rw [hq] at hpc
          have hp1 : nodePred t0.cfg nd = .ok p := hpc.1.symm
          obtain ⟨v, rfl⟩ : ∃ v, p = .reg v := by
            unfold nodePred at hp1
            rw [if_neg hcls0] at hp1
            split at hp1
            · cases hp1
            · cases hp1
            · cases hp1; exact ⟨_, rfl⟩
          refine .inr ⟨_, _, _, _, rfl, hp1, rfl, fun _ => rfl, List.prefix_rfl, ?_, ?_⟩
          · intro b hb; cases hb
          · exact ⟨hpc.2 _ _ rfl, hi.bound, hi.probs⟩

theorem copy_read (h : List (List K)) (a : Answer K) : (a.copy h).1.read (a.copy h).2 = a.read h := by
  cases a with
  | cls l b => simp [Answer.copy, Answer.read]
  | reg v => rfl

theorem copy_number (h : List (List K)) (a : Answer K) : (a.copy h).1.number = a.number := by cases a <;> rfl

theorem copy_prefix (h : List (List K)) (a : Answer K) : h <+: (a.copy h).2 := by
  cases a with
  | cls l b => exact List.prefix_append _ _
  | reg v => exact List.prefix_rfl

theorem copy_arrays (h : List (List K)) (a : Answer K) : ∀ b ∈ (a.copy h).1.arrays, h.length ≤ b ∧ b < (a.copy h).2.length := by
  intro b hb
  cases a with
  | cls l c =>
    obtain rfl := List.mem_singleton.1 hb
    simp [Answer.copy]
  | reg v => cases hb

theorem read_prefix {h h' : List (List K)} (hh : h <+: h') (a : Answer K) (ha : ∀ b ∈ a.arrays, b < h.length) : a.read h' = a.read h := by
  cases a with
  | cls l b =>
    obtain ⟨r, rfl⟩ := hh
    have := ha b (List.mem_singleton.2 rfl)
    simp only [Answer.read]
    rw [List.getD_eq_getElem?_getD, List.getD_eq_getElem?_getD, List.getElem?_append_left this]
  | reg v => rfl

/-- One call of `predict_batch`. -/
theorem ShareInv.batch {s : Bool} {t0 : Tree K G} (xs : List (List K)) {t : SharedTree K G} {h : List (List K)} {own : List Nat}
    (hi : ShareInv s t0 t h own) :
    (∃ e, t.predictBatch h xs = .error e ∧ xs.mapM (purePredict t0) = .error e) ∨
    ∃ as t' h' ps, t.predictBatch h xs = .ok (as, t', h') ∧ xs.mapM (purePredict t0) = .ok ps ∧
      as.map Answer.number = ps.map Pred.number ∧ (s = false ∨ t0.cfg.isCls = false → as.map (Answer.read h') = ps) ∧ h <+: h' ∧
      (∀ a ∈ as, ∀ b ∈ a.arrays, h.length ≤ b ∧ b < h'.length) ∧ ShareInv s t0 t' h' (as.flatMap Answer.arrays ++ own) := by
  induction xs generalizing t h own with
  | nil => exact .inr ⟨[], t, h, [], rfl, rfl, rfl, fun _ => rfl, List.prefix_rfl, (by intro a ha; cases ha), hi⟩
  | cons x xs ih =>
    rw [SharedTree.predictBatch, List.mapM_cons]
    rcases hi.predict x with ⟨e, h1, h2⟩ | ⟨a, t', h', p, h1, h2, h3, h4, h5, h6, h7⟩
    · rw [h1, h2]
      exact .inl ⟨e, rfl, rfl⟩
    · rw [h1, h2]
      simp only [bind, Except.bind, pure, Except.pure]
      have hg : ShareInv s t0 t' (a.copy h').2 ((a.copy h').1.arrays ++ own) := by
        refine h7.grow (copy_prefix h' a) ?_
        intro b hb
        rcases List.mem_append.1 hb with hb | hb
        · exact ⟨(copy_arrays h' a b hb).2, .inr (copy_arrays h' a b hb).1⟩
        · exact ⟨lt_of_lt_of_le (h7.bound b hb) (copy_prefix h' a).length_le, .inl hb⟩
      rcases ih hg with ⟨e, g1, g2⟩ | ⟨as, t2, h2', ps, g1, g2, g3, g4, g5, g6, g7⟩
      · rw [g1, g2]
        exact .inl ⟨e, rfl, rfl⟩
      · rw [g1, g2]
        have hp1 : h <+: (a.copy h').2 := h5.trans (copy_prefix h' a)
        refine .inr ⟨_, _, _, _, rfl, rfl, ?_, ?_, hp1.trans g5, ?_, ?_⟩
        · rw [List.map_cons, List.map_cons, g3, copy_number, h3]
        · intro hs
          rw [List.map_cons, g4 hs, read_prefix g5 _ (fun b hb => (copy_arrays h' a b hb).2), copy_read, h4 hs]
        · intro c hc b hb
          rcases List.mem_cons.1 hc with rfl | hc
          · have := copy_arrays h' a b hb
            exact ⟨le_trans h5.length_le this.1, lt_of_lt_of_le this.2 g5.length_le⟩
          · exact ⟨le_trans hp1.length_le (g6 c hc b hb).1, (g6 c hc b hb).2⟩
        · rw [List.flatMap_cons, List.append_assoc]
          refine g7.grow List.prefix_rfl ?_
          intro b hb
          have hb' : b ∈ List.flatMap Answer.arrays as ++ ((a.copy h').1.arrays ++ own) := by
            simp only [List.mem_append] at hb ⊢
            tauto
          exact ⟨g7.bound b hb', .inl hb'⟩

theorem TreeUse.inv {s : Bool} {t0 t1 : Tree K G} {t : SharedTree K G} {h : List (List K)} {lent own : List Nat}
    (hu : TreeUse s t1 t h lent own) (hc : CacheOf t0 t1) : ShareInv s t0 t h own := by
  induction hu with
  | start h => exact ⟨hc, (by intro a ha; cases ha), (by intro id l a ha; cases ha)⟩
  | @predict t t' h h' lent own x a hu hp ih =>
    rcases ih.predict x with ⟨e, h1, _⟩ | ⟨a', t2, h2, p, h1, _, _, _, _, _, h7⟩
    · rw [hp] at h1; cases h1
    · rw [hp] at h1; cases h1; exact h7
  | @batch t t' h h' lent own xs as hu hp ih =>
    rcases ih.batch xs with ⟨e, h1, _⟩ | ⟨a', t2, h2, p, h1, _, _, _, _, _, h7⟩
    · rw [hp] at h1; cases h1
    · rw [hp] at h1; cases h1; exact h7
  | write hu ha p ih => exact ih.write (.inl ha) p
  | overwrite hu hs ha p ih => exact ih.write (.inr hs) p

/-! ### Trees -/

/-- C122 for trees, what holds with any writing: the class label, or the regression value, answered for `x` is the one the tree gave at
first. Missing: the class probabilities, see `C122_overwritten` and `C122_refuted`. -/
theorem C122_number_partial (R : Rng K G) (mem : Nat → Junk K) (A : TreeArgs K) (s : Bool) (t0 : Tree K G) (hf : Fitted R mem A t0)
    (t : SharedTree K G) (h : List (List K)) (lent own : List Nat) (hu : TreeUse s t0 t h lent own) (x : List K) :
    (t.predict h x).map (fun r => r.1.number) = (t0.predict x).map (fun r => r.1.number) := by
  obtain ⟨dd, t00, hg⟩ := hf.facts
  have h0 := (predict_cache hg.cache x).1
  rcases (hu.inv hg.cache).predict x with ⟨e, h1, h2⟩ | ⟨a, t', h', p, h1, h2, h3, _⟩
  · rw [h2] at h0
    rw [h1]
    cases hq : t0.predict x with
    | error e' => rw [hq] at h0; cases h0; rfl
    | ok r => rw [hq] at h0; cases h0
  · rw [h2] at h0
    rw [h1]
    cases hq : t0.predict x with
    | error e' => rw [hq] at h0; cases h0
    | ok r =>
      rw [hq] at h0
      cases h0
      simp only [Except.map]
      rw [h3]

/-- C122 for trees whose arrays from `predict` the caller leaves alone, and for all regression trees: the answer is the one the tree gave at
first, whatever has been written into the arrays of `predict_batch`. -/
theorem C122_tree_partial (R : Rng K G) (mem : Nat → Junk K) (A : TreeArgs K) (s : Bool) (t0 : Tree K G) (hf : Fitted R mem A t0)
    (hs : s = false ∨ A.cfg.isCls = false)
    (t : SharedTree K G) (h : List (List K)) (lent own : List Nat) (hu : TreeUse s t0 t h lent own) (x : List K) :
    (t.predict h x).map (fun r => r.1.read r.2.2) = (t0.predict x).map Prod.fst := by
  obtain ⟨dd, t00, hg⟩ := hf.facts
  rw [(predict_cache hg.cache x).1]
  rcases (hu.inv hg.cache).predict x with ⟨e, h1, h2⟩ | ⟨a, t', h', p, h1, h2, h3, h4, _⟩
  · rw [h1, h2]; rfl
  · rw [h1, h2]
    simp only [Except.map]
    rw [h4 (by rw [hg.cfg_eq]; exact hs)]

/-- The same for a batch. -/
theorem C122_batch_partial (R : Rng K G) (mem : Nat → Junk K) (A : TreeArgs K) (s : Bool) (t0 : Tree K G) (hf : Fitted R mem A t0)
    (hs : s = false ∨ A.cfg.isCls = false)
    (t : SharedTree K G) (h : List (List K)) (lent own : List Nat) (hu : TreeUse s t0 t h lent own) (xs : List (List K)) :
    (t.predictBatch h xs).map (fun r => r.1.map (Answer.read r.2.2)) = xs.mapM (fun x => (t0.predict x).map Prod.fst) := by
  obtain ⟨dd, t00, hg⟩ := hf.facts
  have e : (fun x => (t0.predict x).map Prod.fst) = purePredict t0 := by
    funext x
    exact (predict_cache hg.cache x).1
  rw [e]
  rcases (hu.inv hg.cache).batch xs with ⟨e, h1, h2⟩ | ⟨a, t', h', p, h1, h2, h3, h4, _⟩
  · rw [h1, h2]; rfl
  · rw [h1, h2]
    simp only [Except.map]
    rw [h4 (by rw [hg.cfg_eq]; exact hs)]

/-- What goes wrong in a classification tree: the array that `predict` hands out is the one the tree answers with next time. Whatever the
caller writes into it is the answer for every point that reaches the same leaf, with the old class label. -/
theorem C122_overwritten (t t' : SharedTree K G) (h h' : List (List K)) (x y : List K) (l : K) (a : Nat) (p : List K)
    (hp : t.predict h x = .ok (.cls l a, t', h')) (ha : a < h'.length)
    (hy : walk t.base.nodes y t.base.nodes.length 0 = walk t.base.nodes x t.base.nodes.length 0) :
    (t'.predict (h'.set a p) y).map (fun r => r.1.read r.2.2) = .ok (.cls l p) := by
  unfold SharedTree.predict at hp
  cases hw : walk t.base.nodes x t.base.nodes.length 0 with
  | error e => rw [hw] at hp; cases hp
  | ok id =>
    rw [hw] at hp hy
    simp only [] at hp
    cases hn : t.base.nodes[id]? with
    | none => rw [hn] at hp; cases hp
    | some nd =>
      rw [hn] at hp
      simp only [] at hp
      by_cases hc : t.base.cfg.isCls = true
      · rw [if_pos hc] at hp
        have hkey : t'.base = t.base → t'.probs id = some (l, a) →
            (t'.predict (h'.set a p) y).map (fun r => r.1.read r.2.2) = .ok (.cls l p) := by
          intro e1 e2
          unfold SharedTree.predict
          rw [e1, hy]
          simp only [hn, if_pos hc, e2]
          simp [Except.map, Answer.read, ha]
        cases hq : t.probs id with
        | some q =>
          obtain ⟨l', a'⟩ := q
          rw [hq] at hp
          cases hp
          exact hkey rfl hq
        | none =>
          rw [hq] at hp
          simp only [] at hp
          split_ifs at hp with hz
          cases hm : npArgmax (nd.counts.map (fun (c : Nat) => (c : K) / ((nd.counts.sum : Nat) : K))) with
          | none => rw [hm] at hp; cases hp
          | some i =>
            rw [hm] at hp
            simp only [] at hp
            cases hx : idxToClass t.base.cfg.classes i with
            | none => rw [hx] at hp; cases hp
            | some l' =>
              rw [hx] at hp
              cases hp
              exact hkey rfl (if_pos rfl)
      · rw [if_neg hc] at hp
        cases hq : t.base.predict x with
        | error e => rw [hq] at hp; cases hp
        | ok r => rw [hq] at hp; cases hp

/-! ### Forests -/

theorem sharedTrees_cases {ts0 : List (Tree K G)} {ts : List (SharedTree K G)} {h : List (List K)} {own : List Nat} (x : List K)
    (hi : List.Forall₂ (fun (t0 : Tree K G) (t : SharedTree K G) => ShareInv false t0 t h own) ts0 ts) (ho : ∀ a ∈ own, a < h.length) :
    (∃ e, sharedTreesPredict ts h x = .error e ∧ ts0.mapM (fun (t : Tree K G) => purePredict t x) = .error e) ∨
    ∃ ps ts' h', sharedTreesPredict ts h x = .ok (ps, ts', h') ∧ ts0.mapM (fun (t : Tree K G) => purePredict t x) = .ok ps ∧ h <+: h' ∧
      List.Forall₂ (fun (t0 : Tree K G) (t : SharedTree K G) => ShareInv false t0 t h' own) ts0 ts' := by
  induction ts0 generalizing ts h with
  | nil =>
    cases hi
    exact .inr ⟨[], [], h, rfl, rfl, List.prefix_rfl, .nil⟩
  | cons t0 ts0 ih =>
    cases hi with
    | @cons _ t _ ts hi1 hi2 =>
      rw [sharedTreesPredict, List.mapM_cons]
      rcases hi1.predict x with ⟨e, h1, h2⟩ | ⟨a, t', h', p, h1, h2, _, h4, h5, _, h7⟩
      · rw [h1, h2]
        exact .inl ⟨e, rfl, rfl⟩
      · rw [h1, h2]
        simp only [bind, Except.bind, pure, Except.pure]
        have ho' : ∀ a ∈ own, a < h'.length := fun a ha => lt_of_lt_of_le (ho a ha) h5.length_le
        have hi2' := hi2.imp (fun t0 t hh => hh.grow h5 (own' := own) (fun a ha => ⟨ho' a ha, .inl ha⟩))
        rcases ih hi2' ho' with ⟨e, g1, g2⟩ | ⟨ps, ts', h2', g1, g2, g3, g4⟩
        · rw [g1, g2]
          exact .inl ⟨e, rfl, rfl⟩
        · rw [g1, g2]
          refine .inr ⟨_, _, _, rfl, ?_, h5.trans g3, .cons ?_ g4⟩
          · simp only []
            rw [h4 (.inl rfl)]
          · exact h7.grow g3 (fun a ha => ⟨lt_of_lt_of_le (ho' a ha) g3.length_le, .inl ha⟩)

/-- What holds of a forest in every state that can be reached. -/
structure ForestInv (f0 : Forest K G) (ts0 : List (Tree K G)) (f : SharedForest K G) (h : List (List K)) (own : List Nat) : Prop where
  base : f.base = f0
  bound : ∀ a ∈ own, a < h.length
  trees : List.Forall₂ (fun (t0 : Tree K G) (t : SharedTree K G) => ShareInv false t0 t h own) ts0 f.trees

theorem ForestInv.grow {f0 : Forest K G} {ts0 : List (Tree K G)} {f : SharedForest K G} {h h' : List (List K)} {own own' : List Nat}
    (hi : ForestInv f0 ts0 f h own) (hh : h <+: h') (ho : ∀ a ∈ own', a < h'.length ∧ (a ∈ own ∨ h.length ≤ a)) :
    ForestInv f0 ts0 f h' own' :=
  ⟨hi.base, fun a ha => (ho a ha).1, hi.trees.imp (fun _ _ hh' => hh'.grow hh ho)⟩

theorem ForestInv.predict {f0 : Forest K G} {ts0 : List (Tree K G)} {f : SharedForest K G} {h : List (List K)} {own : List Nat}
    (hi : ForestInv f0 ts0 f h own) (x : List K) :
    (∃ e, f.predict h x = .error e ∧
      ts0.mapM (fun (t : Tree K G) => purePredict t x) >>= forestAnswer f0.cfg f0.classes = .error e) ∨
    ∃ a f' h' p, f.predict h x = .ok (a, f', h') ∧
      ts0.mapM (fun (t : Tree K G) => purePredict t x) >>= forestAnswer f0.cfg f0.classes = .ok p ∧ a.read h' = p ∧ h <+: h' ∧
      (∀ b ∈ a.arrays, h.length ≤ b ∧ b < h'.length) ∧ ForestInv f0 ts0 f' h' (a.arrays ++ own) := by
  unfold SharedForest.predict
  rcases sharedTrees_cases x hi.trees hi.bound with ⟨e, h1, h2⟩ | ⟨ps, ts', h', h1, h2, h3, h4⟩
  · rw [h1, h2]
    exact .inl ⟨e, rfl, rfl⟩
  · rw [h1, h2]
    simp only [bind, Except.bind]
    have hi' : ForestInv f0 ts0 ⟨f0, ts'⟩ h' own :=
      ⟨rfl, fun a ha => lt_of_lt_of_le (hi.bound a ha) h3.length_le, h4⟩
    unfold forestAnswer
    rw [hi.base]
    by_cases hc : f0.cfg.isCls = true
    · rw [if_pos hc, if_pos hc]
      by_cases hps : ps = []
      · rw [if_pos hps, if_pos hps]
        exact .inl ⟨_, rfl, rfl⟩
      · rw [if_neg hps, if_neg hps]
        cases npArgmax (avgProbs f0.classes.length (ps.map Pred.probs)) with
        | none => exact .inl ⟨_, rfl, rfl⟩
        | some i =>
          simp only []
          cases f0.classes[i]? with
          | none => exact .inl ⟨_, rfl, rfl⟩
          | some c =>
            refine .inr ⟨_, _, _, _, rfl, rfl, ?_, h3.trans (List.prefix_append _ _), ?_, ?_⟩
            · simp [Answer.read]
            · intro b hb
              obtain rfl := List.mem_singleton.1 hb
              exact ⟨h3.length_le, by simp⟩
            · refine hi'.grow (List.prefix_append _ _) ?_
              intro a ha
              rcases List.mem_append.1 ha with ha | ha
              · obtain rfl := List.mem_singleton.1 ha
                exact ⟨by simp, .inr le_rfl⟩
              · have := hi'.bound a ha
                exact ⟨by rw [List.length_append]; omega, .inl ha⟩
    · rw [if_neg hc, if_neg hc]
      by_cases hb : f0.cfg.boosting = true
      · rw [if_pos hb, if_pos hb]
        by_cases hps : ps = []
        · rw [if_pos hps, if_pos hps]
          exact .inl ⟨_, rfl, rfl⟩
        · rw [if_neg hps, if_neg hps]
          exact .inr ⟨_, _, _, _, rfl, rfl, rfl, h3, (by intro b hb; cases hb), hi'⟩
      · rw [if_neg hb, if_neg hb]
        by_cases hps : ps = []
        · rw [if_pos hps, if_pos hps]
          exact .inl ⟨_, rfl, rfl⟩
        · rw [if_neg hps, if_neg hps]
          exact .inr ⟨_, _, _, _, rfl, rfl, rfl, h3, (by intro b hb; cases hb), hi'⟩

theorem ForestInv.batch {f0 : Forest K G} {ts0 : List (Tree K G)} (xs : List (List K)) {f : SharedForest K G} {h : List (List K)}
    {own : List Nat} (hi : ForestInv f0 ts0 f h own) :
    (∃ e, f.predictBatch h xs = .error e ∧ xs.mapM (fun x => ts0.mapM (fun (t : Tree K G) => purePredict t x) >>=
      forestAnswer f0.cfg f0.classes) = .error e) ∨
    ∃ as f' h' ps, f.predictBatch h xs = .ok (as, f', h') ∧
      xs.mapM (fun x => ts0.mapM (fun (t : Tree K G) => purePredict t x) >>= forestAnswer f0.cfg f0.classes) = .ok ps ∧
      as.map (Answer.read h') = ps ∧ h <+: h' ∧ (∀ a ∈ as, ∀ b ∈ a.arrays, h.length ≤ b ∧ b < h'.length) ∧
      ForestInv f0 ts0 f' h' (as.flatMap Answer.arrays ++ own) := by
  induction xs generalizing f h own with
  | nil => exact .inr ⟨[], f, h, [], rfl, rfl, rfl, List.prefix_rfl, (by intro a ha; cases ha), hi⟩
  | cons x xs ih =>
    rw [SharedForest.predictBatch, List.mapM_cons]
    rcases hi.predict x with ⟨e, h1, h2⟩ | ⟨a, f', h', p, h1, h2, h4, h5, h6, h7⟩
    · rw [h1, h2]
      exact .inl ⟨e, rfl, rfl⟩
    · rw [h1, h2]
      have hg : ForestInv f0 ts0 f' (a.copy h').2 ((a.copy h').1.arrays ++ own) := by
        refine h7.grow (copy_prefix h' a) ?_
        intro b hb
        rcases List.mem_append.1 hb with hb | hb
        · exact ⟨(copy_arrays h' a b hb).2, .inr (copy_arrays h' a b hb).1⟩
        · exact ⟨lt_of_lt_of_le (h7.bound b (List.mem_append_right _ hb)) (copy_prefix h' a).length_le, .inl (List.mem_append_right _ hb)⟩
      simp only []
      rcases ih hg with ⟨e, g1, g2⟩ | ⟨as, f2, h2', ps, g1, g2, g4, g5, g6, g7⟩
      · rw [g1, g2]
        exact .inl ⟨e, rfl, rfl⟩
      · rw [g1, g2]
        have hp1 : h <+: (a.copy h').2 := h5.trans (copy_prefix h' a)
        refine .inr ⟨_, _, _, _, rfl, rfl, ?_, hp1.trans g5, ?_, ?_⟩
        · rw [List.map_cons, g4, read_prefix g5 _ (fun b hb => (copy_arrays h' a b hb).2), copy_read, h4]
        · intro c hc b hb
          rcases List.mem_cons.1 hc with rfl | hc
          · have := copy_arrays h' a b hb
            exact ⟨le_trans h5.length_le this.1, lt_of_lt_of_le this.2 g5.length_le⟩
          · exact ⟨le_trans hp1.length_le (g6 c hc b hb).1, (g6 c hc b hb).2⟩
        · rw [List.flatMap_cons, List.append_assoc]
          refine g7.grow List.prefix_rfl ?_
          intro b hb
          have hb' : b ∈ List.flatMap Answer.arrays as ++ ((a.copy h').1.arrays ++ own) := by
            simp only [List.mem_append] at hb ⊢
            tauto
          exact ⟨g7.bound b hb', .inl hb'⟩

theorem ForestUse.inv {f0 : Forest K G} {ts0 : List (Tree K G)} {f : SharedForest K G} {h : List (List K)} {own : List Nat}
    (hu : ForestUse f0 f h own) (hc : List.Forall₂ CacheOf ts0 f0.trees) : ForestInv f0 ts0 f h own := by
  induction hu with
  | start h =>
    refine ⟨rfl, (by intro a ha; cases ha), ?_⟩
    show List.Forall₂ _ ts0 (f0.trees.map Tree.share)
    rw [List.forall₂_map_right_iff]
    exact hc.imp (fun t0 t hh => ⟨hh, (by intro a ha; cases ha), (by intro id l a ha; cases ha)⟩)
  | @predict f f' h h' own x a hu hp ih =>
    rcases ih.predict x with ⟨e, h1, _⟩ | ⟨a', f2, h2, p, h1, _, _, _, _, h7⟩
    · rw [hp] at h1; cases h1
    · rw [hp] at h1; cases h1; exact h7
  | @batch f f' h h' own xs as hu hp ih =>
    rcases ih.batch xs with ⟨e, h1, _⟩ | ⟨a', f2, h2, p, h1, _, _, _, _, h7⟩
    · rw [hp] at h1; cases h1
    · rw [hp] at h1; cases h1; exact h7
  | write hu ha p ih =>
    exact ⟨ih.base, fun b hb => by rw [List.length_set]; exact ih.bound b hb, ih.trees.imp (fun _ _ hh => hh.write (.inl ha) p)⟩

theorem Forest_fit_grown {R : Rng K G} {mem : Nat → Nat → Junk K} {f f' : Forest K G} {w w' : World K G} {data : Option (List (List K))}
    {labels : Option Nat} (hf : Forest.fit R mem f w data labels = .ok (f', w')) :
    ∃ ts0 : List (Tree K G), List.Forall₂ CacheOf ts0 f'.trees := by
  obtain ⟨ms, hlen, _, h⟩ := Forest_fit_made hf
  refine ⟨ms.map Made.tree, ?_⟩
  rw [List.forall₂_map_left_iff, List.forall₂_iff_get]
  refine ⟨hlen, fun i hi1 hi2 => ?_⟩
  obtain ⟨m, hm1, hm2, _⟩ := h i _ (List.getElem?_eq_getElem hi2)
  obtain rfl := Option.some.inj ((List.getElem?_eq_getElem hi1).symm.trans hm1)
  obtain ⟨dd, t00, hg⟩ := hm2.fitted.facts
  exact hm2.after.cache hg.cache

theorem pure_trees {ts0 ts : List (Tree K G)} (h : List.Forall₂ CacheOf ts0 ts) (x : List K) :
    ts0.mapM (fun (t : Tree K G) => purePredict t x) = ts.mapM (fun (t : Tree K G) => (t.predict x).map Prod.fst) :=
  forall₂_mapM (h.imp (fun _ _ hh => ((predict_cache hh x).1).symm))

/-- C122 for forests: whatever the caller has asked and has written into the answers, the forest answers as it did at first. -/
theorem C122_forest (R : Rng K G) (mem : Nat → Nat → Junk K) (f0 f' : Forest K G) (w w' : World K G) (data : Option (List (List K)))
    (labels : Option Nat) (hf : Forest.fit R mem f0 w data labels = .ok (f', w')) (f : SharedForest K G) (h : List (List K))
    (own : List Nat) (hu : ForestUse f' f h own) (x : List K) :
    (f.predict h x).map (fun r => r.1.read r.2.2) = (f'.predict x).map Prod.fst := by
  obtain ⟨ts0, hc⟩ := Forest_fit_grown hf
  rw [Forest_predict_fst, ← pure_trees hc]
  rcases (hu.inv hc).predict x with ⟨e, h1, h2⟩ | ⟨a, f2, h2', p, h1, h2, h3, _⟩
  · rw [h1, h2]; rfl
  · rw [h1, h2]
    simp only [Except.map]
    rw [h3]

/-- C122 for `predict_batch` of a forest. -/
theorem C122_forest_batch (R : Rng K G) (mem : Nat → Nat → Junk K) (f0 f' : Forest K G) (w w' : World K G) (data : Option (List (List K)))
    (labels : Option Nat) (hf : Forest.fit R mem f0 w data labels = .ok (f', w')) (f : SharedForest K G) (h : List (List K))
    (own : List Nat) (hu : ForestUse f' f h own) (xs : List (List K)) :
    (f.predictBatch h xs).map (fun r => r.1.map (Answer.read r.2.2)) = xs.mapM (fun x => (f'.predict x).map Prod.fst) := by
  obtain ⟨ts0, hc⟩ := Forest_fit_grown hf
  have e : (fun x => (f'.predict x).map Prod.fst) =
      fun x => ts0.mapM (fun (t : Tree K G) => purePredict t x) >>= forestAnswer f'.cfg f'.classes := by
    funext x
    rw [Forest_predict_fst, ← pure_trees hc]
  rw [e]
  rcases (hu.inv hc).batch xs with ⟨e, h1, h2⟩ | ⟨a, f2, h2', p, h1, h2, h3, _⟩
  · rw [h1, h2]; rfl
  · rw [h1, h2]
    simp only [Except.map]
    rw [h3]

/-- C122, the other direction: a later call does not change an array handed out before, and the answers of a forest are new arrays. -/
theorem C122_kept (R : Rng K G) (mem : Nat → Nat → Junk K) (f0 f' : Forest K G) (w w' : World K G) (data : Option (List (List K)))
    (labels : Option Nat) (hf : Forest.fit R mem f0 w data labels = .ok (f', w')) (f : SharedForest K G) (h : List (List K))
    (own : List Nat) (hu : ForestUse f' f h own) :
    (∀ a ∈ own, a < h.length) ∧
    (∀ (x : List K) (a : Answer K) (f2 : SharedForest K G) (h2 : List (List K)), f.predict h x = .ok (a, f2, h2) →
      h <+: h2 ∧ ∀ b ∈ a.arrays, b ∉ own) ∧
    (∀ (xs : List (List K)) (as : List (Answer K)) (f2 : SharedForest K G) (h2 : List (List K)), f.predictBatch h xs = .ok (as, f2, h2) →
      h <+: h2 ∧ ∀ a ∈ as, ∀ b ∈ a.arrays, b ∉ own) := by
  obtain ⟨ts0, hc⟩ := Forest_fit_grown hf
  have hi := hu.inv hc
  refine ⟨hi.bound, ?_, ?_⟩
  · intro x a f2 h2 hp
    rcases hi.predict x with ⟨e, h1, _⟩ | ⟨a', f3, h3, p, h1, _, _, k1, k2, _⟩
    · rw [hp] at h1; cases h1
    · rw [hp] at h1; cases h1
      exact ⟨k1, fun b hb hb' => absurd (hi.bound b hb') (by have := (k2 b hb).1; omega)⟩
  · intro xs as f2 h2 hp
    rcases hi.batch xs with ⟨e, h1, _⟩ | ⟨a', f3, h3, p, h1, _, _, k1, k2, _⟩
    · rw [hp] at h1; cases h1
    · rw [hp] at h1; cases h1
      exact ⟨k1, fun a ha b hb hb' => absurd (hi.bound b hb') (by have := (k2 a ha b hb).1; omega)⟩

/-- The same for trees: later calls leave the arrays handed out before as they are. -/
theorem C122_kept_tree (R : Rng K G) (mem : Nat → Junk K) (A : TreeArgs K) (s : Bool) (t0 : Tree K G) (hf : Fitted R mem A t0)
    (t : SharedTree K G) (h : List (List K)) (lent own : List Nat) (hu : TreeUse s t0 t h lent own) :
    (∀ (x : List K) (a : Answer K) (t2 : SharedTree K G) (h2 : List (List K)), t.predict h x = .ok (a, t2, h2) → h <+: h2) ∧
    (∀ (xs : List (List K)) (as : List (Answer K)) (t2 : SharedTree K G) (h2 : List (List K)), t.predictBatch h xs = .ok (as, t2, h2) →
      h <+: h2) := by
  obtain ⟨dd, t00, hg⟩ := hf.facts
  have hi := hu.inv hg.cache
  refine ⟨?_, ?_⟩
  · intro x a f2 h2 hp
    rcases hi.predict x with ⟨e, h1, _⟩ | ⟨a', f3, h3, p, h1, _, _, _, k1, _⟩
    · rw [hp] at h1; cases h1
    · rw [hp] at h1; cases h1; exact k1
  · intro xs as f2 h2 hp
    rcases hi.batch xs with ⟨e, h1, _⟩ | ⟨a', f3, h3, p, h1, _, _, _, k1, _⟩
    · rw [hp] at h1; cases h1
    · rw [hp] at h1; cases h1; exact k1

/-! ### Examples -/

/-- A caller asks a tree about `x`, overwrites the array it got with `p`, and asks about `y`: the first and the last answer. -/
def askTwice (t : Tree ℚ Nat) (x y p : List ℚ) : Except Err (Pred ℚ × Pred ℚ) := do
  let (a, t1, h1) ← t.share.predict [] x
  let h2 := a.arrays.foldl (fun h b => h.set b p) h1
  let (b, _, h3) ← t1.predict h2 y
  .ok (a.read h1, b.read h3)

/-- The same with `predict_batch` for the first question. -/
def askBatch (t : Tree ℚ Nat) (x y p : List ℚ) : Except Err (List (Pred ℚ) × Pred ℚ) := do
  let (as, t1, h1) ← t.share.predictBatch [] [x]
  let h2 := (as.flatMap Answer.arrays).foldl (fun h b => h.set b p) h1
  let (b, _, h3) ← t1.predict h2 y
  .ok (as.map (Answer.read h1), b.read h3)

/-- The same with a forest. -/
def askForest (f : Forest ℚ Nat) (x y p : List ℚ) : Except Err (Pred ℚ × Pred ℚ) := do
  let (a, f1, h1) ← f.share.predict [] x
  let h2 := a.arrays.foldl (fun h b => h.set b p) h1
  let (b, _, h3) ← f1.predict h2 y
  .ok (a.read h1, b.read h3)

/-- C122 is false of classification trees: after the caller has overwritten the answer for a point, the tree answers for the same point with
what the caller has written. -/
theorem C122_refuted : ∃ (A : TreeArgs ℚ) (t0 : Tree ℚ Nat) (t : SharedTree ℚ Nat) (h : List (List ℚ)) (lent own : List Nat) (x : List ℚ),
    Fitted rngQ exMem A t0 ∧ TreeUse true t0 t h lent own ∧ (t0.predict x).map Prod.fst = .ok (.cls 0 [1, 0]) ∧
    (t.predict h x).map (fun r => r.1.read r.2.2) = .ok (.cls 0 [5, 7]) := by
  obtain ⟨t0, hf, ht⟩ := runTree_exists (R := rngQ) (mem := exMem) (A := exArgs) (glob := exGlob)
    (p := fun t => match t.share.predict [] [0, 2] with
      | .ok (a, _, h) => a == .cls 0 0 && h == [[1, 0]]
      | .error _ => false) (by decide +kernel)
  cases hp : t0.share.predict [] [0, 2] with
  | error e => rw [hp] at ht; cases ht
  | ok r =>
    obtain ⟨a, t1, h1⟩ := r
    rw [hp] at ht
    simp only [Bool.and_eq_true, beq_iff_eq] at ht
    obtain ⟨rfl, rfl⟩ := ht
    have h0 := C122_tree_partial rngQ exMem exArgs false t0 hf (.inl rfl) _ _ _ _ (.start []) [0, 2]
    rw [hp] at h0
    refine ⟨exArgs, t0, t1, _, _, _, [0, 2], hf, .overwrite (.predict (.start []) hp) rfl (List.mem_singleton.2 rfl) [5, 7], h0.symm, ?_⟩
    exact C122_overwritten t0.share t1 [] _ [0, 2] [0, 2] 0 0 [5, 7] hp (by decide) rfl

/-- A point, the written array, and a point in the same leaf: the tree repeats what was written. With `predict_batch`, and with a forest, it
does not. -/
example : (((do
      let t ← runTree rngQ exMem exArgs exGlob
      let a ← askTwice t [0, 2] [0, 2] [5, 7]
      let b ← askBatch t [0, 2] [0, 2] [5, 7]
      let f ← runForest rngQ exMems exWorld fcfgQ exData 0 none
      let c ← askForest f.1 [0, 2] [0, 2] [5, 7]
      pure (a, b, c)).toOption) ==
    some ((Pred.cls 0 [1, 0], Pred.cls 0 [5, 7]), ([Pred.cls 0 [1, 0]], Pred.cls 0 [1, 0]),
      (Pred.cls 0 [1 / 2, 1 / 2], Pred.cls 0 [1 / 2, 1 / 2]))) = true := by
  decide +kernel

/-- The hypotheses of `C122_tree_partial` are met by a caller who has asked, got a batch and written into it. -/
example : ∃ (t0 : Tree ℚ Nat) (t : SharedTree ℚ Nat) (h : List (List ℚ)) (lent own : List Nat), Fitted rngQ exMem exArgs t0 ∧
    TreeUse false t0 t h lent own ∧ lent = [0] ∧ own = [1] ∧ h = [[1, 0], [5, 7]] := by
  obtain ⟨t0, hf, ht⟩ := runTree_exists (R := rngQ) (mem := exMem) (A := exArgs) (glob := exGlob)
    (p := fun t => match t.share.predict [] [0, 2] with
      | .ok (a, t1, h) => a == .cls 0 0 && h == [[1, 0]] && (match t1.predictBatch h [[0, 2]] with
        | .ok (as, _, h2) => as == [.cls 0 1] && h2 == [[1, 0], [1, 0]]
        | .error _ => false)
      | .error _ => false) (by decide +kernel)
  cases hp : t0.share.predict [] [0, 2] with
  | error e => rw [hp] at ht; cases ht
  | ok r =>
    obtain ⟨a, t1, h1⟩ := r
    rw [hp] at ht
    simp only [Bool.and_eq_true, beq_iff_eq] at ht
    obtain ⟨⟨rfl, rfl⟩, ht⟩ := ht
    cases hb : t1.predictBatch [[1, 0]] [[0, 2]] with
    | error e => rw [hb] at ht; cases ht
    | ok r =>
      obtain ⟨as, t2, h2⟩ := r
      rw [hb] at ht
      simp only [Bool.and_eq_true, beq_iff_eq] at ht
      obtain ⟨rfl, rfl⟩ := ht
      exact ⟨t0, t2, _, _, _, hf, .write (.batch (.predict (.start []) hp) hb) (List.mem_singleton.2 rfl) [5, 7], rfl, rfl, rfl⟩

/-- The hypotheses of `C122_forest` are met by a caller who has asked and written into the answer. -/
example : ∃ (f0 f' : Forest ℚ Nat) (w w' : World ℚ Nat) (f : SharedForest ℚ Nat) (h : List (List ℚ)) (own : List Nat),
    Forest.fit rngQ exMems f0 w none none = .ok (f', w') ∧ ForestUse f' f h own ∧ own = [2] ∧ h.length = 3 ∧ h[2]? = some [5, 7] := by
  cases hr : runForest rngQ exMems exWorld fcfgQ exData 0 none with
  | error e => exact absurd (show (runForest rngQ exMems exWorld fcfgQ exData 0 none).toOption.isSome = true by decide +kernel) (by rw [hr]; exact Bool.false_ne_true)
  | ok q =>
    obtain ⟨f', w'⟩ := q
    obtain ⟨f0, w0, _, hfit⟩ := runForest_parts hr
    have hk : (runForest rngQ exMems exWorld fcfgQ exData 0 none).toOption.any (fun q => match q.1.share.predict [] [0, 2] with
      | .ok (a, _, h) => a == .cls 0 2 && h.length == 3
      | .error _ => false) = true := by decide +kernel
    rw [hr] at hk
    simp only [Except.toOption, Option.any_some] at hk
    cases hp : f'.share.predict [] [0, 2] with
    | error e => rw [hp] at hk; cases hk
    | ok r =>
      obtain ⟨a, f1, h1⟩ := r
      rw [hp] at hk
      simp only [Bool.and_eq_true, beq_iff_eq] at hk
      obtain ⟨rfl, hl⟩ := hk
      exact ⟨f0, f', w0, w', f1, h1.set 2 [5, 7], _, hfit, .write (.predict (.start []) hp) (List.mem_singleton.2 rfl) [5, 7], rfl,
        by rw [List.length_set]; exact hl, by rw [List.getElem?_set_self (by omega)]⟩

end FF
