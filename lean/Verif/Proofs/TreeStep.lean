import Verif.Spec.Grow
import Verif.Proofs.HistRep

/-!
# `TreeBase.fit` as a sequence of small steps
-/

namespace FF

open Spec

set_option linter.unusedSectionVars false

variable {K : Type} [Field K] [LinearOrder K] [IsStrictOrderedRing K] [FloorRing K] [NpFun K] {G : Type}

/-- The effect of one step of `fit` on the tree. -/
inductive TStep (R : Rng K G) (mem : Nat → Junk K) : Tree K G → Tree K G → Prop
  | mark {t : Tree K G} {id : Nat} {leaf : Node K} (hl : id ∈ t.leaves) (hn : t.nodes[id]? = some leaf)
      (hc : splittableConstraints t.cfg leaf = .ok false) :
      TStep R mem t { t with nodes := t.nodes.set id { leaf with isSplittable := some false } }
  | solve {t : Tree K G} {id : Nat} {leaf : Node K} {glob glob' : Glob G} {nb : Option Nat} {data : List (List K)}
      {labels : List K} {r : Option (SplitRes K)} {q : Nat} {g' : G} (hl : id ∈ t.leaves) (hn : t.nodes[id]? = some leaf)
      (hc : splittableConstraints t.cfg leaf = .ok true) (hb : ∀ b, t.remaining = some b → 0 < b)
      (hcomp : leaf.computed = false) (hsp : leaf.isSplittable = none) (hnb : nodeBins t.cfg leaf = .ok nb)
      (hd : leaf.data = some data) (hls : leaf.labels = some labels)
      (hs : nodeSolve R t.rng glob (mem id) t.cfg { leaf with numBins := nb } data labels t.remaining = .ok (r, q, g', glob')) :
      TStep R mem t { t with
        nodes := t.nodes.set id { nodeRecord { leaf with numBins := nb } r q with
          isSplittable := some (splittableImpurity t.cfg t.nData (nodeRecord { leaf with numBins := nb } r q)) }
        rng := g'
        numQueries := t.numQueries + q
        remaining := t.remaining.map (fun b => b - (q : Int)) }
  | split {t : Tree K G} {pos id : Nat} {leaf l r : Node K} {red : XF K} {data : List (List K)} {labels col : List K}
      {g1 g2 : G} (hl : t.leaves[pos]? = some id) (hn : t.nodes[id]? = some leaf)
      (hc : splittableConstraints t.cfg leaf = .ok true) (hcomp : leaf.computed = true)
      (hsp : leaf.isSplittable = some true) (hred : leaf.splitReduction = some red) (hneg : red.lt (.fin 0) = true)
      (himp : red.lt (.fin t.cfg.minImpDec) = true) (hd : leaf.data = some data) (hls : leaf.labels = some labels)
      (hcol : colE data leaf.prevSplitFeature = .ok col)
      (hne1 : (splitIdcs leaf.idcs col leaf.splitValue).1 ≠ []) (hne2 : (splitIdcs leaf.idcs col leaf.splitValue).2 ≠ [])
      (hcl : childNode R t.rng t leaf labels.length (splitIdcs leaf.idcs col leaf.splitValue).1 = .ok (l, g1))
      (hcr : childNode R g1 t leaf labels.length (splitIdcs leaf.idcs col leaf.splitValue).2 = .ok (r, g2)) :
      TStep R mem t { t with
        nodes := t.nodes.set id { leaf with
          left := some t.nodes.length, right := some (t.nodes.length + 1)
          cacheCls := none, cacheReg := none, alreadySplit := true, data := none, labels := none } ++ [l, r]
        rng := g2
        leaves := t.leaves.eraseIdx pos ++ [t.nodes.length, t.nodes.length + 1]
        numSplits := t.numSplits + 1 }
  | depth {t : Tree K G} {d : Nat} (h : getDepth t = .ok d) : TStep R mem t { t with depth := d }

/-- Zero or more steps. -/
inductive TSteps (R : Rng K G) (mem : Nat → Junk K) (t : Tree K G) : Tree K G → Prop
  | refl : TSteps R mem t t
  | step {t1 t2 : Tree K G} (h : TSteps R mem t t1) (hs : TStep R mem t1 t2) : TSteps R mem t t2

theorem TSteps.one {R : Rng K G} {mem : Nat → Junk K} {t t' : Tree K G} (h : TStep R mem t t') : TSteps R mem t t' :=
  .step .refl h

theorem TSteps.trans {R : Rng K G} {mem : Nat → Junk K} {t t1 t2 : Tree K G} (h : TSteps R mem t t1)
    (h' : TSteps R mem t1 t2) : TSteps R mem t t2 := by
  induction h' with
  | refl => exact h
  | step _ hs ih => exact .step ih hs

/-- The number of features of a node is the one asked for, they are distinct if the tree's are, and they are all of the tree's without
subsampling. -/
structure FeatsNum (sub : FeatSub K) (tfeats feats : List Nat) : Prop where
  num : ∃ c, featCount tfeats.length sub = .ok c ∧ feats.length = c.getD tfeats.length
  le : feats.length ≤ tfeats.length
  nodup : tfeats.Nodup → feats.Nodup
  all : sub = .none → feats = tfeats

/-- What `Node.__init__` produces. -/
structure Fresh (cfg : TreeCfg K) (tdata : List (List K)) (tlabels : List K) (tfeats : List Nat) (tdisc : DiscDict K)
    (idcs : List Nat) (depth : Nat) (proportion : K) (numBins : Option Nat) (nd : Node K) : Prop where
  idcs_eq : nd.idcs = idcs
  feats_sub : ∀ f ∈ nd.featIdcs, f ∈ tfeats
  feats_num : FeatsNum cfg.featSub tfeats nd.featIdcs
  data_eq : nd.data = some (idcs.map (fun i => nd.featIdcs.map (fun j => (tdata.getD i []).getD j 0)))
  rows_lt : ∀ i ∈ idcs, i < tdata.length ∧ ∀ j ∈ nd.featIdcs, j < (tdata.getD i []).length
  labels_eq : nd.labels = some (labelsOf tlabels idcs)
  labels_lt : ∀ i ∈ idcs, i < tlabels.length
  nData_eq : nd.nData = idcs.length
  numBins_eq : nd.numBins = numBins
  depth_eq : nd.depth = depth
  prop_eq : nd.proportion = proportion
  disc_eq : nd.discrete = tdisc
  minmax_eq : nodeMinmax cfg.minmax nd.featIdcs = .ok nd.minmax
  counts_cls : cfg.isCls = true → countsOfLabels cfg.classes (labelsOf tlabels idcs) = .ok nd.counts
  left_eq : nd.left = none
  right_eq : nd.right = none
  split_eq : nd.alreadySplit = false
  feat_eq : nd.splitFeature = none
  comp_eq : nd.computed = false
  q_eq : nd.numQueries = 0
  red_eq : nd.splitReduction = none
  splittable_eq : nd.isSplittable = none
  cacheCls_eq : nd.cacheCls = none
  cacheReg_eq : nd.cacheReg = none

theorem rngChoice_ok {α : Type} {R : Rng K G} {g g' : G} {a r : List α} {d : α} {k : Nat}
    (h : rngChoice R g a d k = .ok (r, g')) : k ≤ a.length ∧ r.length = k ∧ (∀ x ∈ r, x ∈ a) ∧ (a.Nodup → r.Nodup) := by
  unfold rngChoice at h
  split_ifs at h with hk
  cases h
  refine ⟨hk, by rw [List.length_map, R.choice_length _ _ _ hk], ?_, ?_⟩
  · intro x hx
    obtain ⟨i, hi, rfl⟩ := List.mem_map.1 hx
    have := R.choice_lt g _ _ hk i hi
    rw [List.getD_eq_getElem _ _ this]
    exact List.getElem_mem _
  · intro hn
    apply List.Nodup.map_on _ (R.choice_nodup _ _ _ hk)
    intro i hi j hj hij
    have h1 := R.choice_lt g _ _ hk i hi
    have h2 := R.choice_lt g _ _ hk j hj
    rw [List.getD_eq_getElem _ _ h1, List.getD_eq_getElem _ _ h2] at hij
    exact (List.Nodup.getElem_inj_iff hn).1 hij

theorem chooseFeatures_sub {R : Rng K G} {g g' : G} {feats r : List Nat} {sub : FeatSub K}
    (h : chooseFeatures R g feats sub = .ok (r, g')) : ∀ f ∈ r, f ∈ feats := by
  unfold chooseFeatures at h
  split at h
  · cases h
  · cases h; exact fun f hf => hf
  · exact (rngChoice_ok h).2.2.1

theorem chooseFeatures_num {R : Rng K G} {g g' : G} {feats r : List Nat} {sub : FeatSub K}
    (h : chooseFeatures R g feats sub = .ok (r, g')) : FeatsNum sub feats r := by
  unfold chooseFeatures at h
  split at h
  · cases h
  · rename_i hc
    cases h
    exact ⟨⟨_, hc, rfl⟩, le_refl _, fun h => h, fun _ => rfl⟩
  · rename_i k hc
    obtain ⟨h1, h2, h3, h4⟩ := rngChoice_ok h
    exact ⟨⟨_, hc, h2⟩, by rw [h2]; exact h1, h4, fun hs => by rw [hs] at hc; cases hc⟩

theorem getSubset2d_ok {src sub : List (List K)} {rows cols : List Nat} (h : getSubset2d src rows cols = .ok sub) :
    sub = rows.map (fun i => cols.map (fun j => (src.getD i []).getD j 0)) ∧
    ∀ i ∈ rows, i < src.length ∧ ∀ j ∈ cols, j < (src.getD i []).length := by
  unfold getSubset2d at h
  split_ifs at h with hc
  cases h
  refine ⟨rfl, fun i hi => ?_⟩
  have := List.all_eq_true.1 hc i hi
  rw [Bool.and_eq_true, decide_eq_true_eq, List.all_eq_true] at this
  exact ⟨this.1, fun j hj => by simpa using this.2 j hj⟩

theorem Node_init_fresh {R : Rng K G} {g g' : G} {cfg : TreeCfg K} {tdata : List (List K)} {tlabels : List K}
    {tfeats : List Nat} {tdisc : DiscDict K} {idcs : List Nat} {depth : Nat} {proportion : K} {numBins : Option Nat}
    {nd : Node K} (h : Node.init R g cfg tdata tlabels tfeats tdisc idcs depth proportion numBins = .ok (nd, g')) :
    Fresh cfg tdata tlabels tfeats tdisc idcs depth proportion numBins nd := by
  unfold Node.init at h
  split at h
  · cases h
  rename_i feats g1 hf
  split at h
  · cases h
  rename_i sub hsub
  split at h
  · cases h
  rename_i labels hlab
  split at h
  · cases h
  rename_i mm hmm
  split at h
  · cases h
  rename_i counts hcounts
  cases h
  obtain ⟨hs1, hs2⟩ := getSubset2d_ok hsub
  obtain ⟨hl2, hl1⟩ := takeE_ok hlab
  exact {
    idcs_eq := rfl, feats_sub := chooseFeatures_sub hf, feats_num := chooseFeatures_num hf, data_eq := by rw [hs1], rows_lt := hs2
    labels_eq := by simp only [labelsOf]; rw [hl2], labels_lt := hl1
    nData_eq := by rw [hl2, List.length_map], numBins_eq := rfl, depth_eq := rfl, prop_eq := rfl
    disc_eq := rfl, minmax_eq := hmm, left_eq := rfl, right_eq := rfl, split_eq := rfl, feat_eq := rfl, comp_eq := rfl
    q_eq := rfl, red_eq := rfl, splittable_eq := rfl, cacheCls_eq := rfl, cacheReg_eq := rfl
    counts_cls := by
      intro hc
      rw [if_pos hc, hl2] at hcounts
      exact hcounts }

end FF
