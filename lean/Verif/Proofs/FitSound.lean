import Verif.Proofs.FitMachine
import Verif.Proofs.Utils
import Verif.Proofs.RecodeForest
import Verif.Props.Unspent
import Verif.Props.Predict
/-!
# Models that are fitted in threads are sound
-/
namespace FF
open Spec
set_option linter.unusedSectionVars false
variable {K : Type} [Field K] [LinearOrder K] [IsStrictOrderedRing K] [FloorRing K] [NpFun K] {G : Type}
variable {R : Rng K G}

/-! ### Trees -/

theorem GrowFacts.sound {mem : Nat → Junk K} {A : TreeArgs K} {dd : DiscDict K} {t0 t : Tree K G} (hf : GrowFacts R mem A dd t0 t) :
    SoundTree A t := by
  refine ⟨⟨hf.sim.nodup, hf.shape.isLeaf, hf.shape.perm⟩, ?_, ?_, ?_, ?_, ?_⟩
  · intro i hi
    obtain ⟨nd, h1, h2, _⟩ := hf.shape.root
    obtain ⟨leaf, hr, hm⟩ := hf.routes_row t.nodes.length 0 nd (by omega) h1 (by rw [h2]; exact hi)
    exact ⟨leaf, hr.isLeaf .root, hm, hr⟩
  · intro id nd hn hs
    have hok := hf.nodes _ _ hn
    have hcan := hf.canSplit_iff.1 (hok.solved (hok.split hs).1).can
    obtain ⟨_, _, _, red, h1, h2, h3⟩ := hok.split hs
    rw [hf.cfg_eq] at h3
    refine ⟨hcan.size, ?_, red, h1, h2, h3⟩
    rcases hf.shape.links _ _ hn with ⟨h1, _⟩ | ⟨l, r, nl, nr, h1, h2, _, _, _, h6, h7, h8⟩
    · exact absurd h1 hs
    · obtain ⟨f, f1, f2, _⟩ := h8.feat
      exact ⟨f, hok.feats_sub f f2, f1⟩
  · intro d hd id nd hn
    exact hf.depth_le hd hn
  · refine ⟨hf.steps.queries hf.start, ?_⟩
    have := hf.steps.remaining.2
    rw [hf.start.remaining, hf.start.numQueries] at this
    simpa using this
  · intro hd hrows t1 ha x hx
    obtain ⟨leaf, hr⟩ := hf.routes_total hx t.nodes.length 0 (by omega) ((hf.shape.inTree 0).1 .root)
    obtain ⟨p, t2, hp⟩ := hf.predict_of_route hd hrows ha hr
    obtain ⟨leaf2, nd, b1, b2, b3, b4, b5, b6⟩ := hf.predict_parts ha hp
    refine ⟨leaf2, p, t2, b1, b2, hp, ?_, ?_⟩
    · intro hc
      obtain ⟨label, _, e1, _⟩ := hf.nodePred_cls hc (hd hc) b3 b6
      exact ⟨label, by rw [b5]; exact e1⟩
    · intro hc
      rw [b5]
      exact (hf.nodePred_reg hc b3 b4 b6).1

/-- The tree of a phase of `fit()` grew from `t0`. -/
inductive GrowAt (R : Rng K G) (mem : Nat → Junk K) (t0 : Tree K G) : TreePhase K G → Prop
  | pass (n : Nat) {t : Tree K G} (h : TSteps R mem t0 t) : GrowAt R mem t0 (.pass n t)
  | scan (n : Nat) {t tp : Tree K G} {best : Option (Nat × Nat × XF K)} {pos : Nat} {ids : List Nat} (h : TSteps R mem t0 t)
      (hs : ∀ glob, ScanOK tp { t := t, glob := glob, best := best }) (hi : ∀ i (hi : i < ids.length), tp.leaves[pos + i]? = some ids[i]) :
      GrowAt R mem t0 (.scan n t best pos ids)
  | split (n : Nat) {t tp : Tree K G} {best : Option (Nat × Nat × XF K)} (h : TSteps R mem t0 t)
      (hs : ∀ glob, ScanOK tp { t := t, glob := glob, best := best }) : GrowAt R mem t0 (.split n t best)

theorem ScanOK.anyGlob {tp : Tree K G} {s : Scan K G} (h : ScanOK tp s) (glob : Glob G) : ScanOK tp { t := s.t, glob := glob, best := s.best } :=
  ⟨h.sim, h.leaves, h.cfg, h.best⟩

theorem GrowAt.step {mem : Nat → Junk K} {t0 : Tree K G} (h0 : SimInv t0) {ph : TreePhase K G} (h : GrowAt R mem t0 ph) {glob glob' : Glob G}
    {a : TreePhase K G ⊕ Tree K G} (hs : ph.step R mem glob = .ok (a, glob')) :
    (∀ ph', a = .inl ph' → GrowAt R mem t0 ph') ∧ ∀ t, a = .inr t → TSteps R mem t0 t := by
  cases h with
  | pass n ht =>
    rename_i t
    cases n with
    | zero => cases hs
    | succ n =>
      unfold TreePhase.step at hs
      dsimp only at hs
      cases hl : leafLimit t.cfg.maxLeafNodes t.leaves.length with
      | error e => rw [hl] at hs; cases hs
      | ok b =>
        rw [hl] at hs
        cases b with
        | true =>
          cases hs
          exact ⟨fun _ he => (by cases he), fun t' he => by cases he; exact ht⟩
        | false =>
          cases hs
          refine ⟨fun ph' he => ?_, fun t' he => by cases he⟩
          cases he
          exact .scan n (tp := t) ht (fun glob => ⟨h0.steps ht, rfl, rfl, fun b hb => by cases hb⟩)
            (fun i hi => by rw [Nat.zero_add]; exact List.getElem?_eq_getElem hi)
  | scan n ht hsc hi =>
    rename_i t tp best pos ids
    cases ids with
    | nil =>
      cases hs
      refine ⟨fun ph' he => ?_, fun t' he => by cases he⟩
      cases he
      exact .split n ht hsc
    | cons id ids =>
      unfold TreePhase.step at hs
      dsimp only at hs
      cases hl : scanLeaf R mem pos id { t := t, glob := glob, best := best } with
      | error e => rw [hl] at hs; cases hs
      | ok o =>
        rw [hl] at hs
        cases o with
        | none =>
          cases hs
          refine ⟨fun ph' he => ?_, fun t' he => by cases he⟩
          cases he
          exact .split n ht hsc
        | some s =>
          have h1 := scanLeaf_sim (hsc glob) (by have := hi 0 (by simp); rw [Nat.add_zero] at this; exact this) hl
          cases hs
          refine ⟨fun ph' he => ?_, fun t' he => by cases he⟩
          cases he
          refine .scan n (ht.trans h1.1) (fun glob => h1.2.anyGlob glob) (fun i hi' => ?_)
          have := hi (i + 1) (by simpa using hi')
          rw [Nat.add_assoc, Nat.add_comm 1 i]
          simpa using this
  | split n ht hsc =>
    rename_i t tp best
    unfold TreePhase.step at hs
    dsimp only at hs
    cases hl : splitBest R mem { t := t, glob := glob, best := best } with
    | error e => rw [hl] at hs; cases hs
    | ok p =>
      obtain ⟨again, t', gl⟩ := p
      have h1 := splitBest_sim (hsc glob) hl
      rw [hl] at hs
      dsimp only at hs
      cases hd : getDepth t' with
      | error e => rw [hd] at hs; cases hs
      | ok d =>
        rw [hd] at hs
        have h2 := (ht.trans h1).step (.depth hd)
        cases again with
        | true =>
          cases hs
          exact ⟨fun ph' he => (by cases he; exact .pass n h2), fun t' he => by cases he⟩
        | false =>
          cases hs
          exact ⟨fun ph' he => (by cases he), fun t' he => by cases he; exact h2⟩

/-- The call of `fit()` on a tree made from `A` that is in this phase. -/
structure TreeOK (R : Rng K G) (mem : Nat → Junk K) (A : TreeArgs K) (ph : TreePhase K G) : Prop where
  ex : ∃ dd t0, Start R A dd t0 ∧ maybeDiscrete t0.cfg.makeDiscrete A.data A.disc = .ok dd ∧ GrowAt R mem t0 ph

theorem TreeOK.start {mem : Nat → Junk K} {A : TreeArgs K} {t : Tree K G} (hc : Constructed R A t) {ph : TreePhase K G}
    (hs : TreePhase.start t = .ok ph) : TreeOK R mem A ph := by
  unfold TreePhase.start at hs
  cases hd : maybeDiscrete t.cfg.makeDiscrete t.data t.discrete with
  | error e => rw [hd] at hs; cases hs
  | ok dd =>
    obtain ⟨h1, h2⟩ := hc.start dd
    have hdata : t.data = A.data := h1.data
    have hd' := hd
    rw [hdata, h2] at hd'
    rw [hd] at hs
    dsimp only at hs
    cases hsp : t.cfg.splitter <;> rw [hsp] at hs <;> cases hs
    exact ⟨dd, _, h1, hd', .pass _ .refl⟩

theorem TreeOK.step {mem : Nat → Junk K} {A : TreeArgs K} {ph : TreePhase K G} (h : TreeOK R mem A ph) {glob glob' : Glob G}
    {a : TreePhase K G ⊕ Tree K G} (hs : ph.step R mem glob = .ok (a, glob')) :
    (∀ ph', a = .inl ph' → TreeOK R mem A ph') ∧ ∀ t, a = .inr t → SoundTree A t := by
  obtain ⟨dd, t0, h1, h2, h3⟩ := h.ex
  obtain ⟨h4, h5⟩ := h3.step h1.sim hs
  exact ⟨fun ph' he => ⟨dd, t0, h1, h2, h4 ph' he⟩, fun t he => (GrowFacts.of_steps h1 h2 (h5 t he)).sound⟩

/-! ### Forests -/

theorem drawn_rows {g g1 g2 : G} {N F : Nat} {cfg : ForestCfg K} {sub cols rows : List Nat} (h1 : subsets R g N F cfg = .ok (sub, cols, g1))
    (h2 : bootstrapIdcs R g1 N cfg sub = .ok (rows, g2)) : ∀ i ∈ rows, i < N := by
  have hs : ∀ i ∈ sub, i < N := by
    unfold subsets at h1
    by_cases hc : cfg.alphaN < 1 ∨ cfg.alphaF < 1
    · rw [if_pos hc] at h1
      cases h3 : subsetIdcs R g N cfg.alphaN with
      | error e => rw [h3] at h1; cases h1
      | ok p =>
        obtain ⟨r, g3⟩ := p
        rw [h3] at h1
        dsimp only at h1
        cases h4 : subsetIdcs R g3 F cfg.alphaF with
        | error e => rw [h4] at h1; cases h1
        | ok q =>
          obtain ⟨c, g4⟩ := q
          rw [h4] at h1
          cases h1
          unfold subsetIdcs at h3
          split_ifs at h3
          obtain ⟨_, _, h6, _⟩ := rngChoice_ok h3
          exact fun i hi => List.mem_range.1 (h6 i hi)
    · rw [if_neg hc] at h1
      cases h1
      exact fun i hi => List.mem_range.1 hi
  unfold bootstrapIdcs at h2
  by_cases hb : cfg.bootstrap = true
  · rw [if_pos hb] at h2
    exact fun i hi => hs i ((rngChoiceRep_ok h2).2 i hi)
  · rw [if_neg hb] at h2
    cases h2
    exact hs

/-- The array the trees are given, unless the forest is boosted: one the thread was given or one it has made, with the targets `ys`. -/
structure RefOK (L : List Nat) (n0 : Nat) (w : World K G) (ys : List K) (r : Nat) : Prop where
  mine : r ∈ L ∨ n0 ≤ r
  lt : r < w.arrays.length
  eq : w.arrays.getD r [] = ys

theorem RefOK.keeps {L W : List Nat} {n0 : Nat} {w w1 : World K G} {ys : List K} {r : Nat} (h : RefOK L n0 w ys r) (hk : Keeps W w w1)
    (hL : ∀ r ∈ W, r ∉ L) (hW : ∀ r ∈ W, r < n0) : RefOK L n0 w1 ys r := by
  refine ⟨h.mine, lt_of_lt_of_le h.lt hk.len, ?_⟩
  rw [hk.same r h.lt, h.eq]
  intro hr
  rcases h.mine with hm | hm
  · exact hL r hr hm
  · exact absurd (hW r hr) (by omega)

/-- What a call of `forest.fit()` asks for. -/
structure Ask (K : Type) where
  cfg : ForestCfg K
  data : List (List K)
  ys : List K
  budget : Option Int

/-- The forest so far, with `left` more passes to come. -/
structure ForestOK (L : List Nat) (n0 : Nat) (w : World K G) (q : Ask K) (f : Forest K G) (left : Nat) : Prop where
  sound : SoundForest q.cfg q.data q.ys q.budget f
  size : f.trees.length + left ≤ q.cfg.nEstimators
  ref : q.cfg.boosting = false → ∃ r, f.orgRef = some r ∧ RefOK L n0 w q.ys r

/-- The local variables of a pass. -/
structure PassOK (L : List Nat) (n0 : Nat) (w : World K G) (q : Ask K) (c : ForestPass K G) : Prop where
  forest : ForestOK L n0 w q c.f (c.rest.length + 1)
  data : c.data = q.data
  few : c.rows.length ≤ q.data.length
  rows : ∀ i ∈ c.rows, i < q.data.length
  ref : q.cfg.boosting = false → RefOK L n0 w q.ys c.ref

/-- The arguments of the tree of a pass. -/
structure TreeAsk (q : Ask K) (c : ForestPass K G) (A : TreeArgs K) : Prop where
  cfg : A.cfg = c.f.treeCfg
  data : A.data = q.data
  few : A.rows.length ≤ q.data.length
  rows : ∀ i ∈ A.rows, i < q.data.length
  labels : q.cfg.boosting = false → A.labels = q.ys

/-- Where a call of `forest.fit()` is. -/
inductive ForestAt (R : Rng K G) (mem : Nat → Nat → Junk K) (L : List Nat) (n0 : Nat) (w : World K G) (q : Ask K) : ForestPhase K G → Prop
  | pass {data : List (List K)} (F : Nat) {is : List Nat} {f : Forest K G} (hd : data = q.data) (h : ForestOK L n0 w q f is.length) :
      ForestAt R mem L n0 w q (.pass data F is f)
  | seed {c : ForestPass K G} (h : PassOK L n0 w q c) : ForestAt R mem L n0 w q (.seed c)
  | build {c : ForestPass K G} (s : Nat) (h : PassOK L n0 w q c) : ForestAt R mem L n0 w q (.build c s)
  | grow {c : ForestPass K G} {ph : TreePhase K G} (h : PassOK L n0 w q c) {A : TreeArgs K} (ha : TreeAsk q c A)
      (ht : TreeOK R (mem c.i) A ph) : ForestAt R mem L n0 w q (.grow c ph)
  | keep {c : ForestPass K G} {t : Tree K G} (h : PassOK L n0 w q c) {A : TreeArgs K} (ha : TreeAsk q c A) (ht : SoundTree A t) :
      ForestAt R mem L n0 w q (.keep c t)

theorem ForestOK.keeps {L W : List Nat} {n0 : Nat} {w w1 : World K G} {q : Ask K} {f : Forest K G} {left : Nat} (h : ForestOK L n0 w q f left)
    (hk : q.cfg.boosting = false → Keeps W w w1) (hL : ∀ r ∈ W, r ∉ L) (hW : ∀ r ∈ W, r < n0) : ForestOK L n0 w1 q f left :=
  ⟨h.sound, h.size, fun hb => by obtain ⟨r, h1, h2⟩ := h.ref hb; exact ⟨r, h1, h2.keeps (hk hb) hL hW⟩⟩

theorem PassOK.keeps {L W : List Nat} {n0 : Nat} {w w1 : World K G} {q : Ask K} {c : ForestPass K G} (h : PassOK L n0 w q c)
    (hk : q.cfg.boosting = false → Keeps W w w1) (hL : ∀ r ∈ W, r ∉ L) (hW : ∀ r ∈ W, r < n0) : PassOK L n0 w1 q c :=
  ⟨h.forest.keeps hk hL hW, h.data, h.few, h.rows, fun hb => (h.ref hb).keeps (hk hb) hL hW⟩

theorem ForestAt.keeps {mem : Nat → Nat → Junk K} {L W : List Nat} {n0 : Nat} {w w1 : World K G} {q : Ask K} {ph : ForestPhase K G}
    (h : ForestAt R mem L n0 w q ph) (hk : q.cfg.boosting = false → Keeps W w w1) (hL : ∀ r ∈ W, r ∉ L) (hW : ∀ r ∈ W, r < n0) :
    ForestAt R mem L n0 w1 q ph := by
  cases h with
  | pass F hd h => exact .pass F hd (h.keeps hk hL hW)
  | seed h => exact .seed (h.keeps hk hL hW)
  | build s h => exact .build s (h.keeps hk hL hW)
  | grow h ha ht => exact .grow (h.keeps hk hL hW) ha ht
  | keep h ha ht => exact .keep (h.keeps hk hL hW) ha ht

theorem SoundForest.boosting {q : Ask K} {f : Forest K G} (h : SoundForest q.cfg q.data q.ys q.budget f) : f.cfg.boosting = q.cfg.boosting := by
  obtain ⟨b, hb⟩ := h.params
  rw [hb]

/-- A new tree. -/
theorem SoundForest.add {q : Ask K} {f : Forest K G} (h : SoundForest q.cfg q.data q.ys q.budget f) (hn : f.trees.length < q.cfg.nEstimators)
    {A : TreeArgs K} {t t' : Tree K G} (ht : SoundTree A t) (hp : AfterPredicts t t') (hq : t'.numQueries = t.numQueries)
    (h1 : A.cfg = f.treeCfg) (h2 : A.data = q.data) (h3 : A.rows.length ≤ q.data.length) (h4 : ∀ i ∈ A.rows, i < q.data.length)
    (h5 : q.cfg.boosting = false → A.labels = q.ys) (g : G) (oob : Option (List (List Nat))) :
    SoundForest q.cfg q.data q.ys q.budget { f with
      trees := f.trees ++ [t'], rng := g, oobList := oob
      numQueries := f.numQueries + t.numQueries
      remaining := f.remaining.map (fun b => b - (t.numQueries : Int)) } := by
  refine ⟨h.params, h.classes, ?_, ⟨?_, ?_⟩, ?_⟩
  · simp only [List.length_append, List.length_singleton]; omega
  · simp only [List.map_append, List.map_cons, List.map_nil, List.sum_append, List.sum_cons, List.sum_nil]
    rw [h.spent.1, hq, Nat.add_zero]
  · dsimp only
    rw [h.spent.2]
    cases q.budget with
    | none => rfl
    | some b =>
      simp only [Option.map_some, Option.some.injEq]
      push_cast
      ring
  · intro u hu
    rcases List.mem_append.1 hu with hu | hu
    · exact h.trees u hu
    · rw [List.mem_singleton] at hu
      subst hu
      exact ⟨A, t, ht, hp, h1, h2, h3, h4, h5⟩

theorem SoundForest.other {q : Ask K} {f : Forest K G} (h : SoundForest q.cfg q.data q.ys q.budget f) (g : G) (oob : Option (List (List Nat))) :
    SoundForest q.cfg q.data q.ys q.budget { f with rng := g, oobList := oob } :=
  ⟨h.params, h.classes, h.size, h.spent, h.trees⟩

/-- A step of the call. -/
theorem ForestAt.step {mem : Nat → Nat → Junk K} {L : List Nat} {n0 : Nat} {w w1 : World K G} {q : Ask K} {ph : ForestPhase K G}
    (h : ForestAt R mem L n0 w q ph) {a : ForestPhase K G ⊕ Forest K G} (hs : ph.step R mem w = .ok (a, w1)) :
    (∀ ph', a = .inl ph' → ForestAt R mem L n0 w1 q ph') ∧ ∀ f, a = .inr f → SoundForest q.cfg q.data q.ys q.budget f := by
  cases h with
  | pass F hd h =>
    rename_i data is f
    cases is with
    | nil => cases hs; exact ⟨fun _ he => (by cases he), fun f' he => by cases he; exact h.sound⟩
    | cons i is =>
      unfold ForestPhase.step at hs
      dsimp only at hs
      cases h1 : subsets R f.rng data.length F f.cfg with
      | error e => rw [h1] at hs; cases hs
      | ok p =>
        obtain ⟨rows, feats, g1⟩ := p
        rw [h1] at hs
        dsimp only at hs
        by_cases h2 : FF.spent f.remaining = true
        · rw [if_pos h2] at hs
          cases hs
          exact ⟨fun _ he => (by cases he), fun f' he => by cases he; exact h.sound.other g1 f.oobList⟩
        · rw [if_neg h2] at hs
          cases h3 : (if f.cfg.boosting then f.newRef else f.orgRef) with
          | none => rw [h3] at hs; cases hs
          | some ref =>
            rw [h3] at hs
            dsimp only at hs
            cases h4 : bootstrapIdcs R g1 data.length f.cfg rows with
            | error e => rw [h4] at hs; cases hs
            | ok q' =>
              obtain ⟨rows', g2⟩ := q'
              rw [h4] at hs
              cases hs
              refine ⟨fun ph' he => ?_, fun f' he => by cases he⟩
              cases he
              refine .seed ⟨h, hd, ?_, ?_, fun hb => ?_⟩
              · rw [← hd]; exact drawn_length h1 h4
              · rw [← hd]; exact drawn_rows h1 h4
              · obtain ⟨r, h5, h6⟩ := h.ref hb
                rw [if_neg (by rw [h.sound.boosting, hb]; simp), h5] at h3
                cases h3
                exact h6
  | seed h =>
    cases hs
    exact ⟨fun ph' he => (by cases he; exact .build _ (h.keeps (W := []) (fun _ => .of_eq rfl) (fun _ hr => by cases hr) (fun _ hr => by cases hr))),
      fun f' he => by cases he⟩
  | build s h =>
    rename_i c
    unfold ForestPhase.step at hs
    dsimp only at hs
    cases h1 : Tree.init R c.f.treeCfg c.data (w.arrays.getD c.ref []) c.f.discrete c.f.remaining s (some c.rows) (some c.feats) with
    | error e => rw [h1] at hs; cases hs
    | ok p =>
      obtain ⟨t, gl⟩ := p
      rw [h1] at hs
      dsimp only at hs
      cases h2 : TreePhase.start t with
      | error e => rw [h2] at hs; cases hs
      | ok ph =>
        rw [h2] at hs
        cases hs
        refine ⟨fun ph' he => ?_, fun f' he => by cases he⟩
        cases he
        refine .grow (h.keeps (W := []) (fun _ => .of_eq rfl) (fun _ hr => by cases hr) (fun _ hr => by cases hr))
          (A := ⟨c.f.treeCfg, c.data, w.arrays.getD c.ref [], c.f.discrete, c.f.remaining, s, some c.rows, some c.feats⟩)
          ⟨rfl, h.data, h.few, h.rows, fun hb => (h.ref hb).eq⟩ (.start ⟨_, h1⟩ h2)
  | grow h ha ht =>
    rename_i c ph A
    unfold ForestPhase.step at hs
    dsimp only at hs
    cases h1 : ph.step R (mem c.i) w.glob with
    | error e => rw [h1] at hs; cases hs
    | ok p =>
      obtain ⟨x, gl⟩ := p
      rw [h1] at hs
      obtain ⟨h2, h3⟩ := ht.step h1
      have h' : PassOK L n0 { w with glob := gl } q c :=
        h.keeps (W := []) (fun _ => .of_eq rfl) (fun _ hr => by cases hr) (fun _ hr => by cases hr)
      cases x with
      | inl ph1 => cases hs; exact ⟨fun ph' he => (by cases he; exact .grow h' ha (h2 _ rfl)), fun f' he => by cases he⟩
      | inr t => cases hs; exact ⟨fun ph' he => (by cases he; exact .keep h' ha (h3 _ rfl)), fun f' he => by cases he⟩
  | keep h ha ht =>
    rename_i c t A
    unfold ForestPhase.step at hs
    dsimp only at hs
    by_cases h1 : keepTree c.f.remaining t.numQueries = true
    · rw [if_pos h1] at hs
      cases h2 : boostStep c.f c.data t c.i c.rows w with
      | error e => rw [h2] at hs; cases hs
      | ok p =>
        obtain ⟨w2, t2⟩ := p
        rw [h2] at hs
        dsimp only at hs
        obtain ⟨h3, _, h4⟩ := boostStep_after h2
        have h5 := boostStep_queries h2
        have hsz := h.forest.size
        have h6 := h.forest.sound.add (by omega) ht h3 h5 ha.cfg ha.data ha.few ha.rows ha.labels c.g c.oob
        split_ifs at hs
        cases hs
        refine ⟨fun ph' he => ?_, fun f' he => by cases he⟩
        cases he
        refine .pass _ h.data ⟨h6, ?_, fun hb => ?_⟩
        · simp only [List.length_append, List.length_singleton]; omega
        · rw [h4 (by rw [h.forest.sound.boosting, hb])]
          exact h.forest.ref hb
    · rw [if_neg h1] at hs
      cases hs
      exact ⟨fun _ he => (by cases he), fun f' he => by cases he; exact h.forest.sound.other c.g c.oob⟩

/-! ### Jobs -/

/-- A forest that is constructed and not yet fitted. -/
structure ForestNew (L : List Nat) (cfg : ForestCfg K) (data : List (List K)) (labels : Nat) (budget : Option Int) (f : Forest K G) : Prop where
  params : ∃ b, f.cfg = { cfg with makeDiscrete := b }
  classes : cfg.isCls = true → ClassesOK f.classes
  boost : cfg.boosting = true → cfg.isCls = false
  data : f.data = some data
  org : f.orgRef = some labels
  new : f.newRef = some labels
  queries : f.numQueries = 0
  remaining : f.remaining = budget
  mine : labels ∈ L

/-- The targets of a job are those at the start of the program. -/
def Fixed (w0 : World K G) (shared : List Nat) (w : World K G) : Prop :=
  ∀ r < w0.arrays.length, r ∉ shared → w.arrays.getD r [] = w0.arrays.getD r []

/-- Where a thread is within a job. -/
inductive WorkOK (R : Rng K G) (L : List Nat) (w0 : World K G) (shared : List Nat) (w : World K G) : FitJob K G → FitWork K G → Prop
  | tree {A : TreeArgs K} {mem : Nat → Junk K} {t : Tree K G} (h : Constructed R A t) : WorkOK R L w0 shared w (.tree A mem) (.tree mem t)
  | treeFit {A : TreeArgs K} {mem : Nat → Junk K} {ph : TreePhase K G} (h : TreeOK R mem A ph) :
      WorkOK R L w0 shared w (.tree A mem) (.treeFit mem ph)
  | forest {cfg : ForestCfg K} {data : List (List K)} {labels : Nat} {budget : Option Int} {mem : Nat → Nat → Junk K} {f : Forest K G}
      (h : ForestNew L cfg data labels budget f) : WorkOK R L w0 shared w (.forest cfg data labels budget mem) (.forest mem f)
  | forestFit {cfg : ForestCfg K} {data : List (List K)} {labels : Nat} {budget : Option Int} {mem : Nat → Nat → Junk K}
      {ph : ForestPhase K G} (ys : List K) (h : ForestAt R mem L w0.arrays.length w ⟨cfg, data, ys, budget⟩ ph)
      (hy : labels ∉ shared → ys = targetsOf cfg (w0.arrays.getD labels [])) :
      WorkOK R L w0 shared w (.forest cfg data labels budget mem) (.forestFit mem ph)

theorem WorkOK.keeps {L W shared : List Nat} {w0 w w1 : World K G} {j : FitJob K G} {k : FitWork K G} (h : WorkOK R L w0 shared w j k)
    (hk : Keeps W w w1) (hL : ∀ r ∈ W, r ∉ L) (hW : ∀ r ∈ W, r < w0.arrays.length) : WorkOK R L w0 shared w1 j k := by
  cases h with
  | tree h => exact .tree h
  | treeFit h => exact .treeFit h
  | forest h => exact .forest h
  | forestFit ys h hy => exact .forestFit ys (h.keeps (fun _ => hk) hL hW) hy

theorem ForestPhase.start_at {mem : Nat → Nat → Junk K} {L shared : List Nat} {w0 w w1 : World K G} (hlen : w0.arrays.length ≤ w.arrays.length)
    (hfix : Fixed w0 shared w) (hL : ∀ r ∈ L, r < w0.arrays.length)
    {cfg : ForestCfg K} {data : List (List K)} {labels : Nat} {budget : Option Int} {f : Forest K G}
    (h : ForestNew L cfg data labels budget f) {ph : ForestPhase K G} (hs : ForestPhase.start f w = .ok (ph, w1)) :
    ForestAt R mem L w0.arrays.length w1 ⟨cfg, data, targetsOf cfg (w.arrays.getD labels []), budget⟩ ph ∧
      (labels ∉ shared → targetsOf cfg (w.arrays.getD labels []) = targetsOf cfg (w0.arrays.getD labels [])) := by
  refine ⟨?_, fun hl => by rw [hfix labels (hL _ h.mine) hl]⟩
  obtain ⟨b, hcfg⟩ := h.params
  have key : ∀ (o n : Option Nat) (dd : DiscDict K) (mm : Option (List K × List K)) (oob : Option (List (List Nat))),
      (cfg.boosting = false → ∃ r, o = some r ∧ RefOK L w0.arrays.length w1 (targetsOf cfg (w.arrays.getD labels [])) r) →
      ForestOK L w0.arrays.length w1 ⟨cfg, data, targetsOf cfg (w.arrays.getD labels []), budget⟩
        { f with orgRef := o, newRef := n, discrete := dd, minmax := mm, oobList := oob, trees := [] } cfg.nEstimators := by
    intro o n dd mm oob hr
    refine ⟨⟨⟨b, hcfg⟩, h.classes, Nat.zero_le _, ⟨h.queries, ?_⟩, fun t ht => by cases ht⟩, by simp, hr⟩
    dsimp only
    rw [h.remaining, h.queries]
    cases budget with
    | none => rfl
    | some b => simp
  have hest : f.cfg.nEstimators = cfg.nEstimators := by rw [hcfg]
  have hcls : f.cfg.isCls = cfg.isCls := by rw [hcfg]
  unfold ForestPhase.start at hs
  rw [h.data] at hs
  cases data with
  | nil => cases hs
  | cons row rows =>
    dsimp only at hs
    unfold fitTargets at hs
    rw [h.org, h.new] at hs
    by_cases hc : f.cfg.isCls = true
    · rw [if_pos hc] at hs
      dsimp only at hs
      have hrc : ∀ w1 : World K G, w1.arrays = w.arrays ++ [(w.arrays.getD labels []).map truncInt, (w.arrays.getD labels []).map truncInt] →
          RefOK L w0.arrays.length w1 (targetsOf cfg (w.arrays.getD labels [])) w.arrays.length := by
        intro w1 hw1
        refine ⟨Or.inr hlen, by rw [hw1]; simp, ?_⟩
        rw [hw1, targetsOf, if_pos (by rw [← hcls]; exact hc)]
        simp
      cases hm : maybeDiscrete f.cfg.makeDiscrete (row :: rows) f.discrete with
      | error e => rw [hm] at hs; cases hs
      | ok dd =>
        rw [hm] at hs
        dsimp only at hs
        cases hp : f.cfg.precompMinmax <;> cases hob : f.cfg.oobScore <;>
          simp only [hp, hob, Bool.false_eq_true, if_false, if_true] at hs <;> cases hs <;>
          refine .pass _ rfl ?_ <;> rw [List.length_range, hest] <;> exact key _ _ _ _ _ (fun _ => ⟨_, rfl, hrc _ rfl⟩)
    · rw [if_neg hc] at hs
      dsimp only at hs
      have hrc : RefOK L w0.arrays.length w (targetsOf cfg (w.arrays.getD labels [])) labels := by
        refine ⟨Or.inl h.mine, lt_of_lt_of_le (hL _ h.mine) hlen, ?_⟩
        rw [targetsOf, if_neg (by rw [← hcls]; exact hc)]
      cases hm : maybeDiscrete f.cfg.makeDiscrete (row :: rows) f.discrete with
      | error e => rw [hm] at hs; cases hs
      | ok dd =>
        rw [hm] at hs
        dsimp only at hs
        cases hp : f.cfg.precompMinmax <;> cases hob : f.cfg.oobScore <;>
          simp only [hp, hob, Bool.false_eq_true, if_false, if_true] at hs <;> cases hs <;>
          refine .pass _ rfl ?_ <;> rw [List.length_range, hest] <;> exact key _ _ _ _ _ (fun _ => ⟨_, h.org, hrc⟩)

/-- A step within a job. -/
theorem WorkOK.step {L shared : List Nat} {w0 w w1 : World K G} (hlen : w0.arrays.length ≤ w.arrays.length)
    (hfix : Fixed w0 shared w) (hL : ∀ r ∈ L, r < w0.arrays.length) {j : FitJob K G} {k : FitWork K G} (h : WorkOK R L w0 shared w j k)
    {a : FitWork K G ⊕ FitOut K G} (hs : k.step R w = .ok (a, w1)) :
    (∀ k', a = .inl k' → WorkOK R L w0 shared w1 j k') ∧ ∀ o, a = .inr o → SoundOut w0 shared j o := by
  cases h with
  | tree h =>
    rename_i A mem t
    unfold FitWork.step at hs
    dsimp only at hs
    cases h1 : TreePhase.start t with
    | error e => rw [h1] at hs; cases hs
    | ok ph => rw [h1] at hs; cases hs; exact ⟨fun k' he => (by cases he; exact .treeFit (.start h h1)), fun o he => by cases he⟩
  | treeFit h =>
    rename_i A mem ph
    unfold FitWork.step at hs
    dsimp only at hs
    cases h1 : ph.step R mem w.glob with
    | error e => rw [h1] at hs; cases hs
    | ok p =>
      obtain ⟨x, gl⟩ := p
      rw [h1] at hs
      obtain ⟨h2, h3⟩ := h.step h1
      cases x with
      | inl ph1 => cases hs; exact ⟨fun k' he => (by cases he; exact .treeFit (h2 _ rfl)), fun o he => by cases he⟩
      | inr t => cases hs; exact ⟨fun k' he => (by cases he), fun o he => by cases he; exact h3 _ rfl⟩
  | forest h =>
    rename_i cfg data labels budget mem f
    unfold FitWork.step at hs
    dsimp only at hs
    cases h1 : ForestPhase.start f w with
    | error e => rw [h1] at hs; cases hs
    | ok p =>
      obtain ⟨ph, w2⟩ := p
      rw [h1] at hs
      cases hs
      obtain ⟨h2, h3⟩ := ForestPhase.start_at (R := R) (mem := mem) hlen hfix hL h h1
      exact ⟨fun k' he => (by cases he; exact .forestFit _ h2 h3), fun o he => by cases he⟩
  | forestFit ys h hy =>
    rename_i cfg data labels budget mem ph
    unfold FitWork.step at hs
    dsimp only at hs
    cases h1 : ph.step R mem w with
    | error e => rw [h1] at hs; cases hs
    | ok p =>
      obtain ⟨x, w2⟩ := p
      rw [h1] at hs
      obtain ⟨h2, h3⟩ := h.step h1
      cases x with
      | inl ph1 => cases hs; exact ⟨fun k' he => (by cases he; exact .forestFit ys (h2 _ rfl) hy), fun o he => by cases he⟩
      | inr f => cases hs; exact ⟨fun k' he => (by cases he), fun o he => by cases he; exact ⟨ys, h3 _ rfl, hy⟩⟩

/-- The first step of a job. -/
theorem startJob_sound {L shared : List Nat} {w0 w w1 : World K G} {j : FitJob K G} (hr : ∀ r, j.reads = some r → r ∈ L)
    {a : FitWork K G ⊕ FitOut K G} (hs : j.start R w = .ok (a, w1)) :
    (∀ k', a = .inl k' → WorkOK R L w0 shared w1 j k') ∧ ∀ o, a = .inr o → SoundOut w0 shared j o := by
  cases j with
  | tree A mem =>
    unfold FitJob.start at hs
    dsimp only at hs
    cases h1 : Tree.init R A.cfg A.data A.labels A.disc A.budget A.seed A.idcs A.feats with
    | error e => rw [h1] at hs; cases hs
    | ok p => rw [h1] at hs; cases hs; exact ⟨fun k' he => (by cases he; exact .tree ⟨_, h1⟩), fun o he => by cases he⟩
  | forest cfg data labels budget mem =>
    unfold FitJob.start Forest.init at hs
    dsimp only at hs
    by_cases h1 : cfg.boosting = true ∧ cfg.boostingLr = none
    · rw [if_pos h1] at hs; cases hs
    · rw [if_neg h1] at hs
      by_cases h2 : cfg.boosting = true ∧ cfg.isCls = true
      · rw [if_pos h2] at hs; cases hs
      · rw [if_neg h2] at hs
        by_cases h3 : cfg.oobScore = true ∧ ¬ cfg.bootstrap = true
        · rw [if_pos h3] at hs; cases hs
        · rw [if_neg h3] at hs
          cases hs
          refine ⟨fun k' he => ?_, fun o he => by cases he⟩
          cases he
          refine .forest ⟨⟨_, rfl⟩, fun hc => ?_, fun hb => ?_, rfl, rfl, rfl, rfl, rfl, hr _ rfl⟩
          · dsimp only
            rw [if_pos hc]
            exact classToIdx_ok (npUnique_nodup _)
          · cases hc : cfg.isCls with
            | false => rfl
            | true => exact absurd ⟨hb, hc⟩ h2
  | other f => cases hs; exact ⟨fun k' he => (by cases he), fun o he => by cases he; trivial⟩

/-! ### Threads -/

/-- What a thread with the jobs `js` has made so far. -/
structure FitThreadOK (R : Rng K G) (L : List Nat) (w0 : World K G) (shared : List Nat) (js : List (FitJob K G)) (w : World K G)
    (th : FitThread K G) : Prop where
  state : ∃ did rest, js = did ++ rest ∧ List.Forall₂ (SoundOut w0 shared) did th.got ∧
    (th.raised = none → (th.now = none ∧ rest = th.todo) ∨ ∃ j k, th.now = some k ∧ rest = j :: th.todo ∧ WorkOK R L w0 shared w j k)

theorem FitThreadOK.keeps {L W shared : List Nat} {w0 w w1 : World K G} {js : List (FitJob K G)} {th : FitThread K G}
    (h : FitThreadOK R L w0 shared js w th) (hk : Keeps W w w1) (hL : ∀ r ∈ W, r ∉ L) (hW : ∀ r ∈ W, r < w0.arrays.length) :
    FitThreadOK R L w0 shared js w1 th := by
  obtain ⟨did, rest, h1, h2, h3⟩ := h.state
  refine ⟨did, rest, h1, h2, fun hr => ?_⟩
  rcases h3 hr with h3 | ⟨j, k, h4, h5, h6⟩
  · exact Or.inl h3
  · exact Or.inr ⟨j, k, h4, h5, h6.keeps hk hL hW⟩

theorem after_sound {L shared : List Nat} {w0 w : World K G} {js : List (FitJob K G)} {th : FitThread K G} {did todo : List (FitJob K G)}
    {j : FitJob K G} (h1 : js = did ++ j :: todo) (h2 : List.Forall₂ (SoundOut w0 shared) did th.got)
    {x : Except Err ((FitWork K G ⊕ FitOut K G) × World K G)}
    (hx : ∀ a w1, x = .ok (a, w1) → (∀ k', a = .inl k' → WorkOK R L w0 shared w1 j k') ∧ ∀ o, a = .inr o → SoundOut w0 shared j o) :
    FitThreadOK R L w0 shared js (th.after todo w x).2 (th.after todo w x).1 := by
  cases x with
  | error e => exact ⟨did, j :: todo, h1, h2, fun hr => by cases hr⟩
  | ok p =>
    obtain ⟨a, w1⟩ := p
    obtain ⟨h3, h4⟩ := hx a w1 rfl
    cases a with
    | inl k => exact ⟨did, j :: todo, h1, h2, fun _ => Or.inr ⟨j, k, rfl, rfl, h3 k rfl⟩⟩
    | inr o =>
      refine ⟨did ++ [j], todo, by rw [h1]; simp, ?_, fun _ => Or.inl ⟨rfl, rfl⟩⟩
      exact List.rel_append h2 (.cons (h4 o rfl) .nil)

theorem FitThreadOK.step {shared : List Nat} {w0 w w1 : World K G} {js : List (FitJob K G)} (hlen : w0.arrays.length ≤ w.arrays.length)
    (hfix : Fixed w0 shared w) (hL : ∀ r ∈ readsOf js, r < w0.arrays.length) {th th' : FitThread K G}
    (h : FitThreadOK R (readsOf js) w0 shared js w th) (hs : th.step R w = some (th', w1)) : FitThreadOK R (readsOf js) w0 shared js w1 th' := by
  obtain ⟨did, rest, h1, h2, h3⟩ := h.state
  unfold FitThread.step at hs
  cases hr : th.raised with
  | some e => rw [hr] at hs; cases hs
  | none =>
    rw [hr] at hs
    dsimp only at hs
    rcases h3 hr with ⟨h4, h5⟩ | ⟨j, k, h4, h5, h6⟩
    · rw [h4] at hs
      dsimp only at hs
      cases ht : th.todo with
      | nil => rw [ht] at hs; cases hs
      | cons j todo =>
        rw [ht] at hs h5
        have key := after_sound (R := R) (L := readsOf js) (w := w) (h5 ▸ h1) h2 (x := j.start R w) (fun a w2 hx =>
          startJob_sound (fun r hr => List.mem_filterMap.2 ⟨j, by rw [h1, h5]; simp, hr⟩) hx)
        rw [Option.some.inj hs] at key
        exact key
    · rw [h4] at hs
      dsimp only at hs
      have key := after_sound (R := R) (L := readsOf js) (w := w) (h5 ▸ h1) h2 (x := k.step R w) (fun a w2 hx => h6.step hlen hfix hL hx)
      rw [Option.some.inj hs] at key
      exact key

/-! ### All threads -/

structure AllOK (R : Rng K G) (w0 : World K G) (jobs : List (List (FitJob K G))) (m : FitMachine K G) : Prop where
  len : m.threads.length = jobs.length
  arrays : w0.arrays.length ≤ m.world.arrays.length
  fixed : Fixed w0 (writtenBy jobs) m.world
  own : ∀ (a : Nat) (th : FitThread K G) (ja : List (FitJob K G)), m.threads[a]? = some th → jobs[a]? = some ja → th.Own (writesOf ja)
  ok : ∀ (a : Nat) (th : FitThread K G) (ja : List (FitJob K G)), m.threads[a]? = some th → jobs[a]? = some ja →
    FitThreadOK R (readsOf ja) w0 (writtenBy jobs) ja m.world th

theorem AllOK.start (w0 : World K G) (jobs : List (List (FitJob K G))) : AllOK R w0 jobs (FitMachine.start w0 jobs) := by
  refine ⟨by simp [FitMachine.start], le_refl _, fun _ _ _ => rfl, ?_, ?_⟩
  · intro a th ja h1 h2
    simp only [FitMachine.start, List.getElem?_map, h2, Option.map_some, Option.some.injEq] at h1
    subst h1
    refine ⟨fun j hj r hr => List.mem_filterMap.2 ⟨j, hj, hr⟩, fun k hk => by cases hk⟩
  · intro a th ja h1 h2
    simp only [FitMachine.start, List.getElem?_map, h2, Option.map_some, Option.some.injEq] at h1
    subst h1
    exact ⟨[], ja, rfl, .nil, fun _ => Or.inl ⟨rfl, rfl⟩⟩

theorem AllOK.step {w0 : World K G} {jobs : List (List (FitJob K G))} (hA : Apart w0 jobs) {m : FitMachine K G} (h : AllOK R w0 jobs m)
    (a : Nat) : AllOK R w0 jobs (m.step R a) := by
  unfold FitMachine.step
  cases ht : m.threads[a]? with
  | none => exact h
  | some th =>
    dsimp only
    cases hs : th.step R m.world with
    | none => exact h
    | some p =>
      obtain ⟨th', w1⟩ := p
      dsimp only
      have halt : a < m.threads.length := by
        by_contra hc
        rw [List.getElem?_eq_none (by omega)] at ht
        cases ht
      obtain ⟨ja, hja⟩ : ∃ ja, jobs[a]? = some ja := by
        refine ⟨jobs[a]'(by have := h.len; omega), ?_⟩
        exact List.getElem?_eq_getElem _
      have hmem := List.mem_of_getElem? hja
      obtain ⟨hk, ho⟩ := FitThread.step_keeps (h.own a th ja ht hja) hs
      have hreads : ∀ r ∈ readsOf ja, r < w0.arrays.length := by
        intro r hr
        obtain ⟨y, hy, hyr⟩ := List.mem_filterMap.1 hr
        exact hA.there ja hmem y hy r hyr
      refine ⟨by simpa using h.len, le_trans h.arrays hk.len, ?_, ?_, ?_⟩
      · intro r hr hn
        rw [hk.same r (lt_of_lt_of_le hr h.arrays) (fun hw => hn (List.mem_flatMap.2 ⟨ja, hmem, hw⟩))]
        exact h.fixed r hr hn
      · intro b th2 jb h1 h2
        by_cases hb : a = b
        · subst hb
          rw [List.getElem?_set_self halt] at h1
          cases h1
          rw [hja] at h2
          cases h2
          exact ho
        · rw [List.getElem?_set_ne hb] at h1
          exact h.own b th2 jb h1 h2
      · intro b th2 jb h1 h2
        by_cases hb : a = b
        · subst hb
          rw [List.getElem?_set_self halt] at h1
          cases h1
          rw [hja] at h2
          cases h2
          exact (h.ok a th ja ht hja).step h.arrays h.fixed hreads hs
        · rw [List.getElem?_set_ne hb] at h1
          refine (h.ok b th2 jb h1 h2).keeps hk ?_ ?_
          · intro r hr hL
            obtain ⟨x, hx, hxr⟩ := List.mem_filterMap.1 hr
            obtain ⟨y, hy, hyr⟩ := List.mem_filterMap.1 hL
            exact hA.own a b ja jb hja h2 hb x hx y hy r hxr hyr
          · intro r hr
            obtain ⟨x, hx, hxr⟩ := List.mem_filterMap.1 hr
            exact hA.there ja hmem x hx r (writes_reads hxr)

theorem AllOK.run {w0 : World K G} {jobs : List (List (FitJob K G))} (hA : Apart w0 jobs) : ∀ (sched : List Nat) {m : FitMachine K G},
    AllOK R w0 jobs m → AllOK R w0 jobs (m.run R sched)
  | [], _, h => h
  | a :: sched, _, h => AllOK.run hA sched (h.step hA a)

end FF
