import Verif.Proofs.Threads
import Verif.Props.Predict
import Verif.Props.OneTree
import Verif.Props.Recode
/-!
# Threads that predict with one forest or one tree (C131, C132)
-/
set_option linter.unusedSectionVars false
namespace FF
open Spec
variable {K : Type} [Field K] [LinearOrder K] [IsStrictOrderedRing K] [FloorRing K] [NpFun K] {G : Type}

/-! ### Specification -/

/-- The answer `a` is the one that `tree.predict(x)` gives when nobody else uses the tree. -/
def RightAnswer (t : Tree K G) (x : List K) (a : Got K) : Prop :=
  (∃ l p t', t.predict x = .ok (.cls l p, t') ∧ a = .cls (some l) (some p)) ∨ (∃ v t', t.predict x = .ok (.reg v, t') ∧ a = .reg (some v))

/-- The same, except that the label may be `None`. -/
def RightButLabel (t : Tree K G) (x : List K) (a : Got K) : Prop :=
  RightAnswer t x a ∨ ∃ l p t', t.predict x = .ok (.cls l p, t') ∧ a = .cls none (some p)

/-- Thread `i` asks the tree about the points `points[i]`, one after the other (`tree.predict_batch(points[i])`); the threads after the steps
of the schedule. -/
def treeThreads (t : Tree K G) (points : List (List (List K))) (sched : List Nat) : List (Thread K) :=
  ((Machine.start [t] (points.map (fun (ys : List (List K)) => ys.map (fun x => (0, x))))).run [t] sched).threads

/-- Thread `i` asks the forest about the points `points[i]`, one after the other (`forest.predict_batch(points[i])`); the threads after the
steps of the schedule. -/
def forestThreads (f : Forest K G) (points : List (List (List K))) (sched : List Nat) : List (Thread K) :=
  ((Machine.start f.trees (points.map (fun (ys : List (List K)) => ys.flatMap (forestCalls f)))).run f.trees sched).threads

/-- What the forest returns for the thread's point number `j`, once all trees have answered. -/
def forestReturns (f : Forest K G) (th : Thread K) (j : Nat) : Except Err (Pred K) :=
  f.combine (((th.got.drop (j * f.trees.length)).take f.trees.length).map Prod.snd)

/-! ### Trees -/

theorem Fitted.steady {R : Rng K G} {mem : Nat → Junk K} {A : TreeArgs K} {t t1 : Tree K G} (h : Fitted R mem A t)
    (hd : A.cfg.isCls = true → ClassesOK A.cfg.classes) (hrows : A.rows ≠ []) (ha : AfterPredicts t t1) : Steady t1 := by
  obtain ⟨dd, t0, hf⟩ := h.facts
  refine (ha.cache hf.cache).steady ?_
  intro id nd hn hl
  exact hf.nodePred_total hd hn hl (hf.shape.rows_ne hrows hn)

theorem GotOK.right {t t1 : Tree K G} {x : List K} {p : Pred K} {c0 : LeafCache K} {a : Got K} (h : GotOK p c0 a)
    (hp : purePredict t1 x = .ok p) (hs : Steady t1) (he : (t1.predict x).map Prod.fst = (t.predict x).map Prod.fst) :
    RightButLabel t x a ∧ (c0.label ≠ none → RightAnswer t x a) ∧ (t1.cfg.isCls = false → RightAnswer t x a) := by
  have h1 : (t.predict x).map Prod.fst = .ok p := by rw [← he, hs.predict, hp]
  cases ht : t.predict x with
  | error e => rw [ht] at h1; cases h1
  | ok q =>
    obtain ⟨p', t'⟩ := q
    rw [ht] at h1
    obtain rfl : p' = p := Except.ok.inj h1
    cases p' with
    | cls L P =>
      rcases h with rfl | ⟨rfl, h⟩
      · have : RightAnswer t x (.cls (some L) (some P)) := .inl ⟨L, P, t', ht, rfl⟩
        exact ⟨.inl this, fun _ => this, fun _ => this⟩
      · refine ⟨.inr ⟨L, P, t', ht, rfl⟩, fun hq => absurd h hq, fun hq => ?_⟩
        unfold purePredict at hp
        cases hw : walk t1.nodes x t1.nodes.length 0 with
        | error e => rw [hw] at hp; cases hp
        | ok id =>
          rw [hw] at hp
          simp only [] at hp
          cases hn : t1.nodes[id]? with
          | none => rw [hn] at hp; cases hp
          | some nd =>
            rw [hn] at hp
            have := (nodePred_cls_parts hp).1
            rw [hq] at this
            cases this
    | reg V =>
      subst h
      have : RightAnswer t x (.reg (some V)) := .inr ⟨V, t', ht, rfl⟩
      exact ⟨.inl this, fun _ => this, fun _ => this⟩

/-- What `predict` changes. -/
theorem predict_sets {t t2 : Tree K G} {x : List K} {p : Pred K} (h : t.predict x = .ok (p, t2)) :
    ∃ leaf nd nd', walk t.nodes x t.nodes.length 0 = .ok leaf ∧ t.nodes[leaf]? = some nd ∧ t2.nodes = t.nodes.set leaf nd' ∧
      (t.cfg.isCls = true → nd'.cacheCls ≠ none) ∧ (nd.cacheCls ≠ none → nd'.cacheCls ≠ none) := by
  unfold Tree.predict at h
  cases hw : walk t.nodes x t.nodes.length 0 with
  | error e => rw [hw] at h; cases h
  | ok leaf =>
    rw [hw] at h
    simp only [] at h
    cases hn : t.nodes[leaf]? with
    | none => rw [hn] at h; cases h
    | some nd =>
      rw [hn] at h
      simp only [] at h
      have hself : t.nodes = t.nodes.set leaf nd := by
        obtain ⟨hlt, rfl⟩ := List.getElem?_eq_some_iff.1 hn
        exact (List.set_getElem_self hlt).symm
      by_cases hc : t.cfg.isCls = true
      · rw [if_pos hc] at h
        cases hcc : nd.cacheCls with
        | some q =>
          obtain ⟨l, pr⟩ := q
          rw [hcc] at h
          cases h
          exact ⟨leaf, nd, nd, rfl, hn, hself, fun _ => by rw [hcc]; simp, id⟩
        | none =>
          rw [hcc] at h
          simp only [] at h
          by_cases hs : nd.counts.sum = 0
          · rw [if_pos hs] at h; cases h
          · rw [if_neg hs] at h
            cases hi : npArgmax (nd.counts.map (fun (c : Nat) => (c : K) / ((nd.counts.sum : Nat) : K))) with
            | none => rw [hi] at h; cases h
            | some i =>
              rw [hi] at h
              simp only [] at h
              cases hl : idxToClass t.cfg.classes i with
              | none => rw [hl] at h; cases h
              | some l =>
                rw [hl] at h
                cases h
                exact ⟨leaf, nd, _, rfl, hn, rfl, fun _ => by simp, fun _ => by simp⟩
      · rw [if_neg hc] at h
        cases hcc : nd.cacheReg with
        | some v =>
          rw [hcc] at h
          cases h
          exact ⟨leaf, nd, nd, rfl, hn, hself, fun q => absurd q hc, id⟩
        | none =>
          rw [hcc] at h
          simp only [] at h
          cases hl : nd.labels with
          | none => rw [hl] at h; cases h
          | some ls =>
            rw [hl] at h
            cases ls with
            | nil => cases h
            | cons a b =>
              cases h
              exact ⟨leaf, nd, _, rfl, hn, rfl, fun q => absurd q hc, id⟩

theorem predict_keeps {t t2 : Tree K G} {x : List K} {p : Pred K} (h : t.predict x = .ok (p, t2)) {id : Nat}
    (hk : ∃ nd : Node K, t.nodes[id]? = some nd ∧ nd.cacheCls ≠ none) : ∃ nd : Node K, t2.nodes[id]? = some nd ∧ nd.cacheCls ≠ none := by
  obtain ⟨leaf, nd, nd', _, h2, h3, _, h5⟩ := predict_sets h
  obtain ⟨nd1, hn1, hc1⟩ := hk
  rw [h3]
  by_cases hl : leaf = id
  · subst hl
    obtain rfl := Option.some.inj (h2.symm.trans hn1)
    exact ⟨nd', List.getElem?_set_self (List.getElem?_eq_some_iff.1 hn1).1, h5 hc1⟩
  · exact ⟨nd1, by rw [List.getElem?_set_ne hl]; exact hn1, hc1⟩

theorem AfterPredicts.keeps {t t2 : Tree K G} (h : AfterPredicts t t2) {id : Nat}
    (hk : ∃ nd : Node K, t.nodes[id]? = some nd ∧ nd.cacheCls ≠ Option.none) :
    ∃ nd : Node K, t2.nodes[id]? = some nd ∧ nd.cacheCls ≠ Option.none := by
  induction h with
  | none => exact hk
  | call _ hp ih => exact predict_keeps hp ih

section
variable (R : Rng K G) (mem : Nat → Junk K) (A : TreeArgs K)

/-- What the threads of a tree have. -/
theorem treeThreads_ok (t t1 : Tree K G) (h : Fitted R mem A t) (hd : A.cfg.isCls = true → ClassesOK A.cfg.classes) (hrows : A.rows ≠ [])
    (ha : AfterPredicts t t1) (points : List (List (List K))) (sched : List Nat) (i : Nat) (xs : List (List K)) (th : Thread K)
    (hi : points[i]? = some xs) (hth : (treeThreads t1 points sched)[i]? = some th) :
    ∃ c, ThreadOK [t1] c (xs.map (fun x => (0, x))) th := by
  have hs := h.steady hd hrows ha
  have hT : ∀ t' ∈ [t1], Steady t' := fun t' ht' => by rw [List.mem_singleton.1 ht']; exact hs
  have hm := Machine.run_ok hT sched (start_ok hT (points.map (fun (ys : List (List K)) => ys.map (fun x => (0, x)))))
  exact ⟨_, hm.threads i th _ hth (by rw [List.getElem?_map, hi]; rfl)⟩

theorem ThreadOK.got_prefix {trees : List (Tree K G)} {c : Caches K} {js : List (Nat × List K)} {th : Thread K}
    (h : ThreadOK trees c js th) : th.got.map Prod.fst <+: js := ⟨_, h.order⟩

theorem ThreadOK.answer {t1 : Tree K G} {c : Caches K} {xs : List (List K)} {th : Thread K}
    (h : ThreadOK [t1] c (xs.map (fun x => (0, x))) th) {q : (Nat × List K) × Got K} (hq : q ∈ th.got) :
    ∃ p leaf, purePredict t1 q.1.2 = .ok p ∧ walk t1.nodes q.1.2 t1.nodes.length 0 = .ok leaf ∧ GotOK p (cachesOf [t1] 0 leaf) q.2 := by
  obtain ⟨t', p, leaf, h1, h2, h3, h4⟩ := h.got q hq
  have h0 : q.1.1 = 0 := by
    have hm := h.got_prefix.subset (List.mem_map_of_mem hq)
    obtain ⟨x, _, hx⟩ := List.mem_map.1 hm
    rw [← hx]
  rw [h0] at h1 h4
  obtain rfl : t1 = t' := Option.some.inj h1
  exact ⟨p, leaf, h2, h3, h4⟩

theorem after_predict_eq {t t1 : Tree K G} (h : Fitted R mem A t) (ha : AfterPredicts t t1) (x : List K) :
    (t1.predict x).map Prod.fst = (t.predict x).map Prod.fst := C38_history_independent R mem A t t1 h ha x

/-- C132, in part. Any number of threads ask one fitted tree; whatever was asked before, and in whatever order the steps of the threads are
made, including orders in which some thread stops for good in the middle of a call: every call that returns gives the right probabilities or
the right mean, and the label, if there is one, is the right label. The answers are those to the thread's first points, in order. -/
theorem C132_tree_partial (t t1 : Tree K G) (h : Fitted R mem A t) (hd : A.cfg.isCls = true → ClassesOK A.cfg.classes) (hrows : A.rows ≠ [])
    (ha : AfterPredicts t t1) (points : List (List (List K))) (sched : List Nat) (i : Nat) (xs : List (List K)) (th : Thread K)
    (hi : points[i]? = some xs) (hth : (treeThreads t1 points sched)[i]? = some th) :
    th.got.map (fun q => q.1.2) <+: xs ∧ ∀ q ∈ th.got, RightButLabel t q.1.2 q.2 := by
  obtain ⟨c, hok⟩ := treeThreads_ok R mem A t t1 h hd hrows ha points sched i xs th hi hth
  constructor
  · have := hok.got_prefix.map Prod.snd
    rw [List.map_map, List.map_map] at this
    simpa [Function.comp_def] using this
  · intro q hq
    obtain ⟨p, leaf, h1, _, h3⟩ := hok.answer hq
    exact (h3.right h1 (h.steady hd hrows ha) (after_predict_eq R mem A h ha _)).1

/-- C131 for regression trees: every call that returns gives what it gives when nobody else uses the tree. -/
theorem C131_regression_tree (t t1 : Tree K G) (h : Fitted R mem A t) (hc : A.cfg.isCls = false) (hrows : A.rows ≠ [])
    (ha : AfterPredicts t t1) (points : List (List (List K))) (sched : List Nat) (i : Nat) (xs : List (List K)) (th : Thread K)
    (hi : points[i]? = some xs) (hth : (treeThreads t1 points sched)[i]? = some th) :
    th.got.map (fun q => q.1.2) <+: xs ∧ ∀ q ∈ th.got, RightAnswer t q.1.2 q.2 := by
  have hd : A.cfg.isCls = true → ClassesOK A.cfg.classes := fun q => by rw [hc] at q; cases q
  refine ⟨(C132_tree_partial R mem A t t1 h hd hrows ha points sched i xs th hi hth).1, fun q hq => ?_⟩
  obtain ⟨c, hok⟩ := treeThreads_ok R mem A t t1 h hd hrows ha points sched i xs th hi hth
  obtain ⟨p, leaf, h1, _, h3⟩ := hok.answer hq
  refine (h3.right h1 (h.steady hd hrows ha) (after_predict_eq R mem A h ha _)).2.2 ?_
  obtain ⟨dd, t0, hf⟩ := h.facts
  rw [(ha.cache hf.cache).cfg, hf.cfg_eq]
  exact hc

/-- C132, in part: a label is right if the point was asked (by a call that returned) before the threads started. -/
theorem C132_warm_partial (t ta tb t1 : Tree K G) (h : Fitted R mem A t) (hd : A.cfg.isCls = true → ClassesOK A.cfg.classes)
    (hrows : A.rows ≠ []) (ha : AfterPredicts t ta) (x : List K) (px : Pred K) (hx : ta.predict x = .ok (px, tb)) (hb : AfterPredicts tb t1)
    (points : List (List (List K))) (sched : List Nat) (i : Nat) (xs : List (List K)) (th : Thread K)
    (hi : points[i]? = some xs) (hth : (treeThreads t1 points sched)[i]? = some th) :
    ∀ q ∈ th.got, q.1.2 = x → RightAnswer t x q.2 := by
  intro q hq hqx
  have hab : AfterPredicts t t1 := (AfterPredicts.call ha hx).trans hb
  obtain ⟨c, hok⟩ := treeThreads_ok R mem A t t1 h hd hrows hab points sched i xs th hi hth
  obtain ⟨p, leaf, h1, h2, h3⟩ := hok.answer hq
  rw [hqx] at h1 h2
  obtain ⟨dd, t0, hf⟩ := h.facts
  have hca := ha.cache hf.cache
  have hc1 := hab.cache hf.cache
  obtain ⟨r1, r2, r3⟩ := h3.right h1 (h.steady hd hrows hab) (after_predict_eq R mem A h hab x)
  by_cases hc : t1.cfg.isCls = true
  · apply r2
    obtain ⟨leaf', nd, nd', e1, e2, e3, e4, _⟩ := predict_sets hx
    have hl : leaf' = leaf := by
      rw [walk_cache hca, hca.len] at e1
      rw [walk_cache hc1, hc1.len] at h2
      exact Except.ok.inj (e1.symm.trans h2)
    subst hl
    have hk : ∃ nd : Node K, tb.nodes[leaf']? = some nd ∧ nd.cacheCls ≠ none := by
      refine ⟨nd', ?_, e4 (by rw [hca.cfg, ← hc1.cfg]; exact hc)⟩
      rw [e3]
      exact List.getElem?_set_self (List.getElem?_eq_some_iff.1 e2).1
    obtain ⟨nd1, k1, k2⟩ := hb.keeps hk
    simp only [cachesOf, List.getElem?_cons_zero, k1, ne_eq, Option.map_eq_none_iff]
    exact k2
  · exact r3 (by simpa using hc)

/-- C132, in part: every thread that makes `8 n` steps has its `n` answers (or an exception that its point raises anyway), whatever the
others do. -/
theorem C132_ends_partial (t t1 : Tree K G) (h : Fitted R mem A t) (hd : A.cfg.isCls = true → ClassesOK A.cfg.classes) (hrows : A.rows ≠ [])
    (ha : AfterPredicts t t1) (points : List (List (List K))) (sched : List Nat) (i : Nat) (xs : List (List K)) (th : Thread K)
    (hi : points[i]? = some xs) (hth : (treeThreads t1 points sched)[i]? = some th) (hn : 8 * xs.length ≤ sched.count i) :
    th.got.map (fun q => q.1.2) = xs ∨ ∃ e x, x ∈ xs ∧ th.raised = some e ∧ (t.predict x).map Prod.fst = .error e := by
  have hs := h.steady hd hrows ha
  have hT : ∀ t' ∈ [t1], Steady t' := fun t' ht' => by rw [List.mem_singleton.1 ht']; exact hs
  obtain ⟨c, hok⟩ := treeThreads_ok R mem A t t1 h hd hrows ha points sched i xs th hi hth
  have hstart : (Machine.start [t1] (points.map (fun (ys : List (List K)) => ys.map (fun x => (0, x))))).threads[i]? =
      some { todo := xs.map (fun x => (0, x)) } := by
    simp [Machine.start, List.getElem?_map, hi]
  have hl := Machine.run_left hT i sched (start_ok hT (points.map (fun (ys : List (List K)) => ys.map (fun x => (0, x))))) hstart hth
  have h0 : th.left = 0 := by
    simp only [Thread.left, Option.isSome_none, Bool.false_eq_true, if_false, List.length_map] at hl
    simp only [Thread.left]
    omega
  rcases Thread.left_zero hok h0 with ⟨e, he⟩ | h1
  · right
    obtain ⟨k, x, hm, hr⟩ := hok.raised e he
    obtain ⟨x', hx', e1⟩ := List.mem_map.1 hm
    cases e1
    refine ⟨e, x, hx', he, ?_⟩
    rcases hr with ⟨q, _⟩ | ⟨t', q1, q2⟩
    · cases q
    · obtain rfl : t1 = t' := Option.some.inj q1
      rw [← after_predict_eq R mem A h ha x, hs.predict, q2]
  · left
    have := congrArg (List.map Prod.snd) h1
    rw [List.map_map, List.map_map] at this
    simpa [Function.comp_def] using this

end

/-- C132 as stated is false, of every fitted classification tree that has not been asked before: if one thread has written the probabilities
of a leaf and not yet the label, a second thread gets `None` for the label. If the first thread is interrupted there, so does every later
call. -/
theorem C132_refuted_always (R : Rng K G) (mem : Nat → Junk K) (A : TreeArgs K) (t t' : Tree K G) (h : Fitted R mem A t)
    (x : List K) (l : K) (p : List K) (hx : t.predict x = .ok (.cls l p, t')) :
    (treeThreads t [[x], [x, x]] [0, 0, 0, 1, 1, 1, 1, 1, 1, 1, 1])[1]?.map Thread.got =
      some [((0, x), .cls none (some p)), ((0, x), .cls none (some p))] := by
  obtain ⟨dd, t0, hf⟩ := h.facts
  have hp := (predict_cache hf.cache x).1
  rw [hx] at hp
  have hp' : purePredict t x = .ok (.cls l p) := hp.symm
  unfold purePredict at hp'
  cases hw : walk t.nodes x t.nodes.length 0 with
  | error e => rw [hw] at hp'; cases hp'
  | ok leaf =>
    rw [hw] at hp'
    simp only [] at hp'
    cases hn : t.nodes[leaf]? with
    | none => rw [hn] at hp'; cases hp'
    | some nd =>
      rw [hn] at hp'
      obtain ⟨h1, h2, h3, _⟩ := nodePred_cls_parts hp'
      obtain ⟨c1, c2⟩ := (hf.nodes leaf nd hn).cache
      simp [treeThreads, Machine.start, Machine.run, Machine.step, Thread.step, hw, hn, h1, h2, phaseStep, cachesOf, c1, h3]

/-- C132 as stated is false, concretely. -/
theorem C132_refuted : ∃ (t : Tree ℚ Nat) (th : Thread ℚ), Fitted rngQ exMem exArgs t ∧
    (t.predict [1, 2]).map Prod.fst = .ok (.cls 0 [1, 0]) ∧
    (treeThreads t [[[1, 2]], [[1, 2], [1, 2]]] [0, 0, 0, 1, 1, 1, 1, 1, 1, 1, 1])[1]? = some th ∧
    th.got = [((0, [1, 2]), .cls none (some [1, 0])), ((0, [1, 2]), .cls none (some [1, 0]))] ∧
    ¬ ∀ q ∈ th.got, RightAnswer t q.1.2 q.2 := by
  have hv : (runTree rngQ exMem exArgs exGlob).map (fun t => ((t.predict [1, 2]).map Prod.fst).toOption ==
      some (.cls 0 [1, 0])) = .ok true := by decide +kernel
  cases hr : runTree rngQ exMem exArgs exGlob with
  | error e => rw [hr] at hv; cases hv
  | ok t =>
    rw [hr] at hv
    have hv1 := Except.ok.inj hv
    have hv2 := eq_of_beq hv1
    cases hp : t.predict [1, 2] with
    | error e => rw [hp] at hv2; cases hv2
    | ok q =>
      obtain ⟨p, t'⟩ := q
      rw [hp] at hv2
      obtain rfl : p = .cls 0 [1, 0] := Option.some.inj hv2
      have hfit := runTree_fitted hr
      have hall := C132_refuted_always rngQ exMem exArgs t t' hfit [1, 2] 0 [1, 0] hp
      obtain ⟨th, h1, h2⟩ := Option.map_eq_some_iff.1 hall
      refine ⟨t, th, hfit, by rw [hp]; rfl, h1, h2, fun hall' => ?_⟩
      have := hall' ((0, [1, 2]), .cls none (some [1, 0])) (by rw [h2]; simp)
      rcases this with ⟨_, _, _, _, q⟩ | ⟨_, _, _, q⟩
      · cases q
      · cases q

/-- Two threads that take turns get the right answers from the example tree; the hypotheses of the theorems are met. -/
example : ∃ t : Tree ℚ Nat, Fitted rngQ exMem exArgs t ∧ exArgs.rows ≠ [] ∧ ClassesOK exArgs.cfg.classes ∧
    ((treeThreads t [[[1, 2]], [[1, 2]]] [0, 1, 0, 1, 0, 1, 0, 1, 0, 1, 0, 1, 0, 1, 0, 1]).map (fun th => th.got.map Prod.snd)) =
      [[.cls (some 0) (some [1, 0])], [.cls (some 0) (some [1, 0])]] := by
  have hv : (runTree rngQ exMem exArgs exGlob).map (fun t =>
      decide (((treeThreads t [[[1, 2]], [[1, 2]]] [0, 1, 0, 1, 0, 1, 0, 1, 0, 1, 0, 1, 0, 1, 0, 1]).map (fun th => th.got.map Prod.snd)) =
      [[.cls (some 0) (some [1, 0])], [.cls (some 0) (some [1, 0])]])) = .ok true := by decide +kernel
  cases hr : runTree rngQ exMem exArgs exGlob with
  | error e => rw [hr] at hv; cases hv
  | ok t =>
    rw [hr] at hv
    exact ⟨t, runTree_fitted hr, by decide +kernel, cfgQ_classes, of_decide_eq_true (Except.ok.inj hv)⟩

/-- The same for the example regression tree. -/
example : ∃ t : Tree ℚ Nat, Fitted rngQ exMem exArgsReg t ∧ exArgsReg.rows ≠ [] ∧ exArgsReg.cfg.isCls = false ∧
    ((treeThreads t [[[1, 2]], [[1, 2]]] [0, 1, 0, 1, 0, 1, 0, 1, 0, 1, 0, 1, 0, 1, 0, 1]).map (fun th => th.got.map Prod.snd)) =
      [[.reg (some 3)], [.reg (some 3)]] := by
  have hv : (runTree rngQ exMem exArgsReg exGlob).map (fun t =>
      decide (((treeThreads t [[[1, 2]], [[1, 2]]] [0, 1, 0, 1, 0, 1, 0, 1, 0, 1, 0, 1, 0, 1, 0, 1]).map (fun th => th.got.map Prod.snd)) =
      [[.reg (some 3)], [.reg (some 3)]])) = .ok true := by decide +kernel
  cases hr : runTree rngQ exMem exArgsReg exGlob with
  | error e => rw [hr] at hv; cases hv
  | ok t =>
    rw [hr] at hv
    exact ⟨t, runTree_fitted hr, by decide +kernel, rfl, of_decide_eq_true (Except.ok.inj hv)⟩

/-! ### Forests -/

section
variable (R : Rng K G) (mem : Nat → Nat → Junk K)

/-- The trees of a fitted forest are steady, also after it has been used. -/
theorem Forest_steady {f f' f1 : Forest K G} {w w' : World K G} {data : Option (List (List K))} {labels : Option Nat}
    (hf : Forest.fit R mem f w data labels = .ok (f', w')) (hd : f.cfg.isCls = true → ClassesOK f.classes)
    (hN : f.cfg.alphaN ≤ 1) (hF : f.cfg.alphaF ≤ 1) (hrow : 1 ≤ ((trainData f data).length : K) * f.cfg.alphaN) (ha : AfterReads f' f1) :
    ∀ t ∈ f1.trees, Steady t ∧ t.cfg.isCls = f1.cfg.isCls := by
  intro t ht
  obtain ⟨ms, _, hdne, hmade⟩ := Forest_fit_made hf
  have hcfg := (Forest_fit_same hf).1
  obtain ⟨ts, mm, rfl, h1, _⟩ := ha.same
  obtain ⟨i, hi⟩ := List.mem_iff_getElem?.1 ht
  obtain ⟨t', ht', haft⟩ := forall₂_getElem h1 hi
  obtain ⟨m, _, hm, _⟩ := hmade i t' ht'
  obtain ⟨rows0, rows, cols, g, g1, g2, d1, d2, d3, d4⟩ := hm.draw
  rw [hcfg] at d1 d2
  obtain ⟨s1, s2⟩ := subsets_ok hN hF d1
  have hsub : rows0 ≠ [] := by
    intro h0
    have := s1.size
    rw [h0] at this
    have h1 : (1 : Int) ≤ ⌊((trainData f data).length : K) * f.cfg.alphaN⌋ := Int.le_floor.2 (by exact_mod_cast hrow)
    rw [← this] at h1
    simp at h1
  have hrows : rows ≠ [] := by
    unfold bootstrapIdcs at d2
    split_ifs at d2
    · intro h0
      have := (rngChoiceRep_ok d2).1
      rw [h0] at this
      exact hdne (List.length_eq_zero_iff.1 this.symm)
    · cases d2
      exact hsub
  have hr : m.args.rows = rows := by unfold TreeArgs.rows; rw [d3]; rfl
  have hall := hm.after.trans haft
  refine ⟨hm.fitted.steady ?_ (by rw [hr]; exact hrows) hall, ?_⟩
  · intro h
    rw [hm.cfg] at h ⊢
    show ClassesOK f'.classes
    rw [(Forest_fit_same hf).2.1]
    apply hd
    rw [← hcfg]
    exact h
  · obtain ⟨dd, t0, hff⟩ := hm.fitted.facts
    rw [(hall.cache hff.cache).cfg, hff.cfg_eq]
    show m.args.cfg.isCls = _
    rw [hm.cfg]
    rfl

theorem purePredict_kind {t : Tree K G} {x : List K} {p : Pred K} (h : purePredict t x = .ok p) :
    (t.cfg.isCls = true → ∃ l pr, p = .cls l pr) ∧ (t.cfg.isCls = false → ∃ v, p = .reg v) := by
  unfold purePredict at h
  cases hw : walk t.nodes x t.nodes.length 0 with
  | error e => rw [hw] at h; cases h
  | ok id =>
    rw [hw] at h
    simp only [] at h
    cases hn : t.nodes[id]? with
    | none => rw [hn] at h; cases h
    | some nd =>
      rw [hn] at h
      cases p with
      | cls l pr => exact ⟨fun _ => ⟨l, pr, rfl⟩, fun q => absurd ((nodePred_cls_parts h).1) (by rw [q]; simp)⟩
      | reg v => exact ⟨fun q => absurd ((nodePred_reg_parts h).1) (by rw [q]; simp), fun _ => ⟨v, rfl⟩⟩

theorem flatMap_chunk {α β : Type} (g : α → List β) (T : Nat) (hg : ∀ a, (g a).length = T) (xs : List α) (j : Nat) (x : α)
    (hx : xs[j]? = some x) : ((xs.flatMap g).drop (j * T)).take T = g x := by
  induction xs generalizing j with
  | nil => cases hx
  | cons a xs ih =>
    cases j with
    | zero =>
      cases hx
      rw [Nat.zero_mul, List.drop_zero, List.flatMap_cons, List.take_append_of_le_length (by rw [hg]), ← hg x, List.take_length]
    | succ j =>
      rw [List.flatMap_cons, Nat.succ_mul, Nat.add_comm, ← List.drop_drop, ← hg a, List.drop_left, hg a]
      exact ih j hx

/-- The answers of all trees to a point, combined. -/
theorem combine_right {f : Forest K G} {x : List K} {as : List (Got K)}
    (hs : ∀ t ∈ f.trees, Steady t ∧ t.cfg.isCls = f.cfg.isCls)
    (h : List.Forall₂ (fun (t : Tree K G) (a : Got K) => ∃ p c0, purePredict t x = .ok p ∧ GotOK p c0 a) f.trees as) :
    f.combine as = (f.predict x).map Prod.fst := by
  have key : ∃ ps, f.trees.mapM (fun (t : Tree K G) => (t.predict x).map Prod.fst) = .ok ps ∧
      (f.cfg.isCls = true → as.mapM Got.probs = some (ps.map Pred.probs)) ∧
      (f.cfg.isCls = false → as.mapM Got.value = some (ps.map Pred.value)) := by
    generalize f.trees = ts at hs h
    induction h with
    | nil => exact ⟨[], rfl, fun _ => rfl, fun _ => rfl⟩
    | cons hta _ ih =>
      rename_i t a ts' as' _
      obtain ⟨ps, e1, e2, e3⟩ := ih (fun t ht => hs t (List.mem_cons_of_mem _ ht))
      obtain ⟨p, c0, hp, hg⟩ := hta
      obtain ⟨st, sc⟩ := hs t (List.mem_cons_self ..)
      refine ⟨p :: ps, ?_, ?_, ?_⟩
      · rw [List.mapM_cons, st.predict x, hp, e1]
        rfl
      · intro hc
        obtain ⟨l, pr, rfl⟩ := (purePredict_kind hp).1 (sc.trans hc)
        rw [List.mapM_cons, e2 hc]
        rcases hg with rfl | ⟨rfl, _⟩ <;> rfl
      · intro hc
        obtain ⟨v, rfl⟩ := (purePredict_kind hp).2 (sc.trans hc)
        rw [List.mapM_cons, e3 hc]
        obtain rfl : a = _ := hg
        rfl
  obtain ⟨ps, e1, e2, e3⟩ := key
  rw [Forest_predict_fst, e1]
  show _ = forestAnswer f.cfg f.classes ps
  unfold Forest.combine forestAnswer
  by_cases hc : f.cfg.isCls = true
  · rw [if_pos hc, if_pos hc, e2 hc]
    simp only [List.map_eq_nil_iff]
    by_cases hps : ps = []
    · rw [if_pos hps, if_pos hps]
    · rw [if_neg hps, if_neg hps]
      cases npArgmax (avgProbs f.classes.length (ps.map Pred.probs)) with
      | none => rfl
      | some i =>
        simp only []
        cases f.classes[i]? <;> rfl
  · rw [if_neg hc, if_neg hc, e3 (by simpa using hc)]
    simp only [List.map_eq_nil_iff]

/-- C131. Any number of threads ask one fitted forest; whatever was asked before, and in whatever order the steps of the threads are made,
including orders in which some thread stops for good in the middle of a call: every call that returns gives what it gives when nobody else
uses the forest. -/
theorem C131_forest (f f' f1 : Forest K G) (w w' : World K G) (data : Option (List (List K))) (labels : Option Nat)
    (hf : Forest.fit R mem f w data labels = .ok (f', w')) (hd : f.cfg.isCls = true → ClassesOK f.classes)
    (hN : f.cfg.alphaN ≤ 1) (hF : f.cfg.alphaF ≤ 1) (hrow : 1 ≤ ((trainData f data).length : K) * f.cfg.alphaN) (ha : AfterReads f' f1)
    (points : List (List (List K))) (sched : List Nat) (i : Nat) (xs : List (List K)) (th : Thread K) (hi : points[i]? = some xs)
    (hth : (forestThreads f1 points sched)[i]? = some th) (j : Nat) (x : List K) (hx : xs[j]? = some x)
    (hdone : (j + 1) * f1.trees.length ≤ th.got.length) :
    forestReturns f1 th j = (f'.predict x).map Prod.fst := by
  have hs := Forest_steady R mem hf hd hN hF hrow ha
  have hT : ∀ t ∈ f1.trees, Steady t := fun t ht => (hs t ht).1
  have hm := Machine.run_ok hT sched (start_ok hT (points.map (fun (ys : List (List K)) => ys.flatMap (forestCalls f1))))
  have hok : ThreadOK f1.trees _ (xs.flatMap (forestCalls f1)) th := hm.threads i th _ hth (by rw [List.getElem?_map, hi]; rfl)
  rw [← Forest_after_predict hf ha x]
  unfold forestReturns
  apply combine_right hs
  obtain ⟨rest, hpre⟩ := hok.got_prefix
  have hT0 : ∀ a, (forestCalls f1 a).length = f1.trees.length := fun a => by simp [forestCalls]
  have hch := flatMap_chunk (forestCalls f1) f1.trees.length hT0 xs j x hx
  rw [← hpre] at hch
  have hlen : (j * f1.trees.length) + f1.trees.length ≤ th.got.length := by rw [← Nat.succ_mul]; exact hdone
  rw [List.drop_append_of_le_length (by rw [List.length_map]; omega),
    List.take_append_of_le_length (by rw [List.length_drop, List.length_map]; omega), ← List.map_drop, ← List.map_take] at hch
  generalize hl : (th.got.drop (j * f1.trees.length)).take f1.trees.length = l at hch ⊢
  have hmem : ∀ q ∈ l, AnswerOK f1.trees q := by
    intro q hq
    rw [← hl] at hq
    exact hok.got q (List.mem_of_mem_drop (List.mem_of_mem_take hq))
  have hll : l.length = f1.trees.length := by
    have := congrArg List.length hch
    rw [List.length_map, hT0] at this
    exact this
  rw [List.forall₂_iff_get]
  refine ⟨by rw [List.length_map, hll], ?_⟩
  intro k hk1 hk2
  have hk3 : k < l.length := by rw [hll]; exact hk1
  have hq := hmem l[k] (List.getElem_mem hk3)
  obtain ⟨t, p, leaf, q1, q2, q3, q4⟩ := hq
  have hjob : l[k].1 = (k, x) := by
    have := congrArg (fun m => m[k]?) hch
    simp only [List.getElem?_map, forestCalls, List.getElem?_eq_getElem hk3, Option.map_some, List.getElem?_range hk1,
      Option.some.injEq] at this
    exact this
  rw [hjob] at q1 q2 q4
  simp only [List.getElem?_eq_getElem hk1, Option.some.injEq] at q1
  refine ⟨p, cachesOf f1.trees k leaf, ?_, ?_⟩
  · simp only [List.get_eq_getElem]
    rw [q1]
    exact q2
  · simp only [List.get_eq_getElem, List.getElem_map]
    exact q4

/-- C131: every thread that makes `8 T n` steps, `T` the number of trees, has its `n` answers (or an exception that its point raises
anyway), whatever the others do. -/
theorem C131_ends (f f' f1 : Forest K G) (w w' : World K G) (data : Option (List (List K))) (labels : Option Nat)
    (hf : Forest.fit R mem f w data labels = .ok (f', w')) (hd : f.cfg.isCls = true → ClassesOK f.classes)
    (hN : f.cfg.alphaN ≤ 1) (hF : f.cfg.alphaF ≤ 1) (hrow : 1 ≤ ((trainData f data).length : K) * f.cfg.alphaN) (ha : AfterReads f' f1)
    (points : List (List (List K))) (sched : List Nat) (i : Nat) (xs : List (List K)) (th : Thread K) (hi : points[i]? = some xs)
    (hth : (forestThreads f1 points sched)[i]? = some th) (hn : 8 * (xs.length * f1.trees.length) ≤ sched.count i) :
    th.got.length = xs.length * f1.trees.length ∨
    ∃ (e : Err) (x : List K) (t : Tree K G), x ∈ xs ∧ t ∈ f1.trees ∧ th.raised = some e ∧ (t.predict x).map Prod.fst = .error e := by
  have hs := Forest_steady R mem hf hd hN hF hrow ha
  have hT : ∀ t ∈ f1.trees, Steady t := fun t ht => (hs t ht).1
  have hm := Machine.run_ok hT sched (start_ok hT (points.map (fun (ys : List (List K)) => ys.flatMap (forestCalls f1))))
  have hok : ThreadOK f1.trees _ (xs.flatMap (forestCalls f1)) th := hm.threads i th _ hth (by rw [List.getElem?_map, hi]; rfl)
  have hstart : (Machine.start f1.trees (points.map (fun (ys : List (List K)) => ys.flatMap (forestCalls f1)))).threads[i]? =
      some { todo := xs.flatMap (forestCalls f1) } := by
    simp [Machine.start, List.getElem?_map, hi]
  have hl := Machine.run_left hT i sched (start_ok hT (points.map (fun (ys : List (List K)) => ys.flatMap (forestCalls f1)))) hstart (th' := th) hth
  have hlen : (xs.flatMap (forestCalls f1)).length = xs.length * f1.trees.length := by
    simp [List.length_flatMap, forestCalls]
  have h0 : th.left = 0 := by
    simp only [Thread.left, Option.isSome_none, Bool.false_eq_true, if_false, hlen] at hl
    simp only [Thread.left]
    omega
  rcases Thread.left_zero hok h0 with ⟨e, he⟩ | h1
  · right
    obtain ⟨k, x, hmm, hr⟩ := hok.raised e he
    obtain ⟨x', hx', e1⟩ := List.mem_flatMap.1 hmm
    obtain ⟨k', hk', e2⟩ := List.mem_map.1 e1
    cases e2
    rcases hr with ⟨q, _⟩ | ⟨t, q1, q2⟩
    · rw [List.mem_range] at hk'
      rw [List.getElem?_eq_getElem hk'] at q
      cases q
    · have ht := List.mem_of_getElem? q1
      exact ⟨e, x, t, hx', ht, he, by rw [(hT t ht).predict, q2]⟩
  · left
    rw [← hlen, ← h1, List.length_map]

end

/-- A schedule in which the second thread finds probabilities without labels in both trees of the example forest: the forest answers like
alone. -/
example : (runForest rngQ exMems exWorld fcfgQ exData 0 none).map (fun p =>
      decide ((forestThreads p.1 [[[1, 2]], [[1, 2]]] [0, 0, 0, 1, 1, 1, 1, 0, 0, 0, 0, 0, 0, 0, 0, 1, 1, 1, 1]).map
          (fun th => th.got.map Prod.snd) =
        [[.cls (some 1) (some [0, 1])], [.cls none (some [0, 1]), .cls none (some [0, 1])]]) &&
      ((forestThreads p.1 [[[1, 2]], [[1, 2]]] [0, 0, 0, 1, 1, 1, 1, 0, 0, 0, 0, 0, 0, 0, 0, 1, 1, 1, 1])[1]?.bind
          (fun th => (forestReturns p.1 th 0).toOption) == some (.cls 1 [0, 1])) &&
      (((p.1.predict [1, 2]).map Prod.fst).toOption == some (.cls 1 [0, 1]))) = .ok true := by decide +kernel

end FF
