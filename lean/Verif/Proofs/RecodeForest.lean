import Verif.Proofs.RecodeTree
import Verif.Props.Boost

/-!
# Two forests grown on recoded data
-/

namespace FF

open Spec

set_option linter.unusedSectionVars false

variable {K : Type} [Field K] [LinearOrder K] [IsStrictOrderedRing K] [FloorRing K] [NpFun K] {G : Type}
variable {R : Rng K G} {mem mem' : Nat → Nat → Junk K}

theorem Tree_init_glob {cfg : TreeCfg K} {data : List (List K)} {labels : List K} {disc : DiscDict K} {budget : Option Int} {seed : Nat}
    {idcs feats : Option (List Nat)} {t : Tree K G} {gl : Glob G}
    (h : Tree.init R cfg data labels disc budget seed idcs feats = .ok (t, gl)) : gl = setSeed R seed := by
  unfold Tree.init at h
  by_cases hlen : data.length ≠ labels.length
  · rw [if_pos hlen] at h
    cases h
  rw [if_neg hlen] at h
  simp only [] at h
  split at h
  · cases h
  split at h
  · cases h
  cases h
  rfl

/-- The arguments of the tree grown in a pass. -/
def Forest.treeArgs (R : Rng K G) (f : Forest K G) (w : World K G) (data : List (List K)) (ref : Nat) (rows cols : List Nat) : TreeArgs K :=
  ⟨f.treeCfg, data, w.arrays.getD ref [], f.discrete, f.remaining, (R.randint w.glob.np maxSeed).1, some rows, some cols⟩

/-- The reference to the labels a pass uses. -/
def Forest.labelRef (f : Forest K G) : Option Nat := if f.cfg.boosting then f.newRef else f.orgRef

theorem forestStep_parts {data : List (List K)} {F i : Nat} {f f1 : Forest K G} {w w1 : World K G} {b : Bool}
    (h : forestStep R mem data F i f w = .ok (b, f1, w1)) :
    ∃ rows0 cols g1, subsets R f.rng data.length F f.cfg = .ok (rows0, cols, g1) ∧
      ((spent f.remaining = true ∧ b = false ∧ f1 = { f with rng := g1 } ∧ w1 = w) ∨
       (spent f.remaining = false ∧ ∃ ref rows g2 t0 t gl1, f.labelRef = some ref ∧
          bootstrapIdcs R g1 data.length f.cfg rows0 = .ok (rows, g2) ∧ Constructed R (f.treeArgs R w data ref rows cols) t0 ∧
          Tree.fit R (mem i) t0 (setSeed R (R.randint w.glob.np maxSeed).1) none none = .ok (t, gl1) ∧
          ((keepTree f.remaining t.numQueries = false ∧ b = false ∧ (∃ o, f1 = { f with rng := g2, oobList := o }) ∧
              w1 = { w with glob := gl1 }) ∨
           (keepTree f.remaining t.numQueries = true ∧ b = true ∧ ∃ t2 o, boostStep f data t i rows { w with glob := gl1 } = .ok (w1, t2) ∧
              f1 = { f with
                trees := f.trees ++ [t2], rng := g2, oobList := o, numQueries := f.numQueries + t.numQueries
                remaining := f.remaining.map (fun b => b - (t.numQueries : Int)) })))) := by
  unfold forestStep at h
  simp only [] at h
  cases hs : subsets R f.rng data.length F f.cfg with
  | error e => rw [hs] at h; cases h
  | ok p =>
    obtain ⟨rows0, cols, g1⟩ := p
    refine ⟨rows0, cols, g1, rfl, ?_⟩
    rw [hs] at h
    simp only [] at h
    cases hsp : spent f.remaining with
    | true =>
      rw [hsp, if_pos rfl] at h
      cases h
      exact Or.inl ⟨rfl, rfl, rfl, rfl⟩
    | false =>
      rw [hsp, if_neg (by simp)] at h
      cases href : (if f.cfg.boosting then f.newRef else f.orgRef) with
      | none => rw [href] at h; cases h
      | some ref =>
        rw [href] at h
        simp only [] at h
        cases hb : bootstrapIdcs R g1 data.length f.cfg rows0 with
        | error e => rw [hb] at h; cases h
        | ok p =>
          obtain ⟨rows, g2⟩ := p
          rw [hb] at h
          simp only [] at h
          cases ht0 : Tree.init R f.treeCfg data (w.arrays.getD ref []) f.discrete f.remaining (R.randint w.glob.np maxSeed).1
              (some rows) (some cols) with
          | error e => rw [ht0] at h; cases h
          | ok p =>
            obtain ⟨tree0, glob0⟩ := p
            rw [ht0] at h
            simp only [] at h
            have hg0 := Tree_init_glob ht0
            cases ht1 : Tree.fit R (mem i) tree0 glob0 none none with
            | error e => rw [ht1] at h; cases h
            | ok p =>
              obtain ⟨tree, glob1⟩ := p
              rw [ht1] at h
              simp only [] at h
              refine Or.inr ⟨rfl, ref, rows, g2, tree0, tree, glob1, href, rfl, ⟨glob0, ht0⟩, by rw [← hg0]; exact ht1, ?_⟩
              cases hk : keepTree f.remaining tree.numQueries with
              | false =>
                rw [hk, if_neg (by simp)] at h
                cases h
                exact Or.inl ⟨rfl, rfl, ⟨_, rfl⟩, rfl⟩
              | true =>
                rw [hk, if_pos rfl] at h
                cases hbo : boostStep f data tree i rows { w with glob := glob1 } with
                | error e => rw [hbo] at h; cases h
                | ok p =>
                  obtain ⟨w2, t'⟩ := p
                  rw [hbo] at h
                  cases h
                  exact Or.inr ⟨rfl, rfl, t', _, rfl, rfl⟩

/-- The samples of the two forests: in the same order (with boosting, if the residuals are recoded as the targets are), or (if every tree uses all of them and solves exactly) in any order. -/
def LabRel (cfg : ForestCfg K) (φ : Nat → K → K) (ψ ψ1 : K → K) (data data' : List (List K)) (arr arr' : List K) : Prop :=
  ((cfg.boosting = false ∨ ∀ y, ψ y = ψ1 y) ∧ ∀ i < data.length, (data'.getD i [], arr'.getD i 0) = recodeSample φ ψ (data.getD i [], arr.getD i 0)) ∨
  (cfg.bootstrap = false ∧ ¬ (cfg.alphaN < 1 ∨ cfg.alphaF < 1) ∧
    ((List.range data.length).map (fun i => (data'.getD i [], arr'.getD i 0))).Perm
      (((List.range data.length).map (fun i => (data.getD i [], arr.getD i 0))).map (recodeSample φ ψ)) ∧
    (cfg.solver ≠ .exact → (List.range data.length).map (fun i => (data'.getD i [], arr'.getD i 0)) =
      ((List.range data.length).map (fun i => (data.getD i [], arr.getD i 0))).map (recodeSample φ ψ)))

/-- What does not change during the loops. -/
structure ForestRecode (mem mem' : Nat → Nat → Junk K) (cfg : ForestCfg K) (classes : ClassDict K) (minmax : Option (List K × List K)) (data data' : List (List K))
    (φ : Nat → K → K) (ψ ψ1 : K → K) (s : K) : Prop where
  len : data'.length = data.length
  mono : ∀ f, StrictMono (φ f)
  inj : Function.Injective ψ
  inj1 : Function.Injective ψ1
  pos : 0 < s
  imp : ∀ ys : List K, critImp (if cfg.isCls then .gini else .mse) (ys.map ψ) = s * critImp (if cfg.isCls then .gini else .mse) ys
  imp1 : ∀ ys : List K, critImp (if cfg.isCls then .gini else .mse) (ys.map ψ1) = s * critImp (if cfg.isCls then .gini else .mse) ys
  mean : cfg.isCls = false → ∀ ys : List K, ys ≠ [] → npMean (ys.map ψ) = ψ (npMean ys)
  mean1 : cfg.isCls = false → ∀ ys : List K, ys ≠ [] → npMean (ys.map ψ1) = ψ1 (npMean ys)
  grid : GridOK cfg.binType φ
  classesOK : cfg.isCls = true → ClassesOK classes
  boost : cfg.boosting = true → cfg.isCls = false ∧ classes = [] ∧ (∀ y p, ψ y - ψ p = ψ1 (y - p)) ∧
    ∀ c y p, ψ1 y - c * ψ1 p = ψ1 (y - c * p)
  solver : cfg.solver = .exact ∨ (SameCost cfg.isCls ψ ∧ SameCost cfg.isCls ψ1 ∧ s = 1 ∧ mem' = mem)
  bins : cfg.useLog = false → cfg.numBins ≠ some 1
  minmax_le : ∀ mins maxs, minmax = some (mins, maxs) → ∀ (f : Nat) (lo hi : K), mins[f]? = some lo → maxs[f]? = some hi → lo ≤ hi

/-- The label map of tree number `j`. -/
def psiAt (boosting : Bool) (ψ ψ1 : K → K) (j : Nat) : K → K := if boosting = true ∧ j ≠ 0 then ψ1 else ψ

/-- The two forests and processes. -/
structure ForestSim (data data' : List (List K)) (φ : Nat → K → K) (ψ ψ1 : K → K) (s : K) (f f' : Forest K G) (w w' : World K G) : Prop where
  cfg : f'.cfg = { f.cfg with minImpDec := s * f.cfg.minImpDec }
  classes : f'.classes = f.classes.map (fun c => (ψ c.1, c.2))
  disc : f.discrete = none
  disc' : f'.discrete = none
  minmax : f'.minmax = recodeMinmax φ f.minmax
  remaining : f'.remaining = f.remaining
  rng : f'.rng = f.rng
  queries : f'.numQueries = f.numQueries
  glob : w'.glob.np = w.glob.np
  len : f'.trees.length = f.trees.length
  alike : ∀ (j : Nat) (t t' : Tree K G), f.trees[j]? = some t → f'.trees[j]? = some t' → ∀ x,
    (t'.predict (recodeRow φ x)).map Prod.fst = ((t.predict x).map Prod.fst).map (recodePred (psiAt f.cfg.boosting ψ ψ1 j))
  labels : ∀ ref ref', f.labelRef = some ref → f'.labelRef = some ref' →
    LabRel f.cfg φ (psiAt f.cfg.boosting ψ ψ1 f.trees.length) ψ1 data data' (w.arrays.getD ref []) (w'.arrays.getD ref' [])

variable {data data' : List (List K)} {φ : Nat → K → K} {ψ ψ1 : K → K} {s : K}

theorem Constructed.rows_lt {A : TreeArgs K} {t : Tree K G} (h : Constructed R A t) : ∀ i ∈ A.rows, i < A.data.length := by
  obtain ⟨nd, _, hf⟩ := ((h.start A.disc).1).root
  exact fun i hi => (hf.rows_lt i hi).1

theorem Constructed.lens {A : TreeArgs K} {t : Tree K G} (h : Constructed R A t) : A.data.length = A.labels.length :=
  ((h.start A.disc).1).lens

/-- The two trees of a pass. -/
theorem pass_recode {f f' : Forest K G} {w w' : World K G}
    (hr : ForestRecode mem mem' f.cfg f.classes f.minmax data data' φ ψ ψ1 s) (h : ForestSim data data' φ ψ ψ1 s f f' w w')
    {ref ref' F : Nat} {rows0 rows cols : List Nat} {g1 g2 : G} (hsub : subsets R f.rng data.length F f.cfg = .ok (rows0, cols, g1))
    (hboot : bootstrapIdcs R g1 data.length f.cfg rows0 = .ok (rows, g2)) (hl : f.labelRef = some ref) (hl' : f'.labelRef = some ref')
    {t0 t0' : Tree K G} (hc : Constructed R (f.treeArgs R w data ref rows cols) t0)
    (hc' : Constructed R (f'.treeArgs R w' data' ref' rows cols) t0') :
    Recode (f.treeArgs R w data ref rows cols) (f'.treeArgs R w' data' ref' rows cols) φ (psiAt f.cfg.boosting ψ ψ1 f.trees.length) s ∧
      ArgsOK (f.treeArgs R w data ref rows cols) ∧ (f.cfg.solver ≠ .exact → Aligned (f.treeArgs R w data ref rows cols)
        (f'.treeArgs R w' data' ref' rows cols) φ (psiAt f.cfg.boosting ψ ψ1 f.trees.length)) := by
  have hrows : ∀ i ∈ rows, i < data.length := hc.rows_lt
  have hlen := hc.lens
  have hlen' := hc'.lens
  refine ⟨?_, ?_, ?_⟩
  · exact {
      cfg := by
        show f'.treeCfg = recodeCfg φ _ s f.treeCfg
        have hcl : f'.classes = f.classes.map (fun c => (psiAt f.cfg.boosting ψ ψ1 f.trees.length c.1, c.2)) := by
          rw [h.classes]
          unfold psiAt
          split_ifs with hb
          · rw [(hr.boost hb.1).2.1]; rfl
          · rfl
        unfold Forest.treeCfg recodeCfg
        rw [h.cfg, h.minmax, hcl]
      cols := rfl
      seed := by
        show (R.randint w'.glob.np maxSeed).1 = (R.randint w.glob.np maxSeed).1
        rw [h.glob]
      budget := h.remaining
      disc := by
        show f'.discrete = f.discrete
        rw [h.disc, h.disc']
      size := by
        rw [← hlen, ← hlen']
        exact hr.len
      perm := by
        rcases h.labels ref ref' hl hl' with ⟨_, hp⟩ | ⟨hb, ha, hp, _⟩
        · refine List.Perm.of_eq ?_
          rw [List.map_map]
          exact List.map_congr_left (fun i hi => hp i (hrows i hi))
        · have : rows = List.range data.length := by
            unfold subsets at hsub
            rw [if_neg ha] at hsub
            cases hsub
            unfold bootstrapIdcs at hboot
            rw [hb, if_neg (by simp)] at hboot
            cases hboot
            rfl
          show (rows.map _).Perm ((rows.map _).map _)
          rw [this]
          exact hp
      mono := hr.mono
      inj := by unfold psiAt; split_ifs; exacts [hr.inj1, hr.inj]
      pos := hr.pos
      imp := by unfold psiAt; split_ifs; exacts [hr.imp1, hr.imp]
      grid := hr.grid
      nodisc := Or.inl rfl }
  · exact {
      crit := by
        show CritFits f.cfg.isCls (if f.cfg.isCls then .gini else .mse)
        cases f.cfg.isCls <;> simp [CritFits]
      minmax_le := hr.minmax_le
      sorted := fun j u hu => by
        rw [show (f.treeArgs R w data ref rows cols).disc = f.discrete from rfl, h.disc] at hu
        cases hu
      linear_bins := fun _ => hr.bins
      auto_bins := fun _ => ⟨hr.bins, fun j u hu => by
        rw [show (f.treeArgs R w data ref rows cols).disc = f.discrete from rfl, h.disc] at hu
        cases hu⟩ }
  · intro hne
    refine ⟨rfl, fun i hi => ?_⟩
    rcases h.labels ref ref' hl hl' with ⟨_, hp⟩ | ⟨_, _, _, hp⟩
    · exact hp i hi
    · have := congrArg (fun l => l[i]?) (hp hne)
      simp only [List.getElem?_map, List.getElem?_range (show i < data.length from hi), Option.map_some, Option.some.injEq] at this
      exact this

theorem boostStep_after {f : Forest K G} {t t2 : Tree K G} {i : Nat} {rows : List Nat} {w w2 : World K G}
    (h : boostStep f data t i rows w = .ok (w2, t2)) :
    AfterPredicts t t2 ∧ w2.glob = w.glob ∧ (f.cfg.boosting = false → w2 = w) := by
  unfold boostStep at h
  split at h
  · next hb =>
    split at h
    · cases h
    rename_i nr hnr
    split at h
    · cases h
    rename_i arr t' hu
    cases h
    refine ⟨?_, rfl, fun q => by rw [hb] at q; cases q⟩
    unfold boostUpdate at hu
    split at hu
    · cases hu
    split at hu
    · cases hu
    rename_i preds t3 hp
    split at hu
    · cases hu
    cases hu
    exact predictBatch_after hp
  · cases h
    exact ⟨.none, rfl, fun _ => rfl⟩

/-- The value of a regression answer. -/
def regValue (t : Tree K G) (x : List K) : K :=
  match (t.predict x).map Prod.fst with
  | .ok (.reg v) => v
  | _ => 0

/-- One pass of the two loops. -/
theorem forestStep_recode {f f' f1 f1' : Forest K G} {w w' w1 w1' : World K G} {b b' : Bool} {F i : Nat} (hne : data ≠ [])
    (hr : ForestRecode mem mem' f.cfg f.classes f.minmax data data' φ ψ ψ1 s) (h : ForestSim data data' φ ψ ψ1 s f f' w w')
    (hi : i = f.trees.length) (hs : forestStep R mem data F i f w = .ok (b, f1, w1))
    (hs' : forestStep R mem' data' F i f' w' = .ok (b', f1', w1')) :
    b' = b ∧ ForestSim data data' φ ψ ψ1 s f1 f1' w1 w1' ∧ f1.cfg = f.cfg ∧ f1.classes = f.classes ∧ f1.minmax = f.minmax ∧
      (b = true → f1.trees.length = f.trees.length + 1) := by
  obtain ⟨rows0, cols, g1, hsub, hp⟩ := forestStep_parts hs
  obtain ⟨rows0', cols', g1', hsub', hp'⟩ := forestStep_parts hs'
  have esub : subsets R f'.rng data'.length F f'.cfg = subsets R f.rng data.length F f.cfg := by
    rw [h.rng, hr.len, h.cfg]
    rfl
  rw [esub, hsub] at hsub'
  simp only [Except.ok.injEq, Prod.mk.injEq] at hsub'
  obtain ⟨rfl, rfl, rfl⟩ := hsub'
  rw [h.remaining] at hp'
  rcases hp with ⟨hsp, rfl, rfl, rfl⟩ | ⟨hsp, ref, rows, g2, t0, t, gl1, hl, hboot, hc, hfit, hk⟩
  · rcases hp' with ⟨_, rfl, rfl, rfl⟩ | ⟨hsp', _⟩
    · exact ⟨rfl, { h with rng := rfl, remaining := rfl }, rfl, rfl, rfl, fun q => by cases q⟩
    · rw [hsp] at hsp'
      cases hsp'
  · rcases hp' with ⟨hsp', _⟩ | ⟨_, ref', rows', g2', t0', t', gl1', hl', hboot', hc', hfit', hk'⟩
    · rw [hsp] at hsp'
      cases hsp'
    have eboot : bootstrapIdcs R g1 data'.length f'.cfg rows0 = bootstrapIdcs R g1 data.length f.cfg rows0 := by
      rw [hr.len, h.cfg]
      rfl
    rw [eboot, hboot] at hboot'
    simp only [Except.ok.injEq, Prod.mk.injEq] at hboot'
    obtain ⟨rfl, rfl⟩ := hboot'
    obtain ⟨hrec, hA, hal⟩ := pass_recode hr h hsub hboot hl hl' hc hc'
    have hcomp : Comparable True (f.treeArgs R w data ref rows cols) (f'.treeArgs R w' data' ref' rows cols) φ
        (psiAt f.cfg.boosting ψ ψ1 f.trees.length) s (mem i) (mem' i) := by
      by_cases hex : f.cfg.solver = .exact
      · exact Or.inl hex
      · obtain ⟨q1, q2, q3, q4⟩ := hr.solver.resolve_left hex
        exact Or.inr ⟨hal hex, by unfold psiAt; split_ifs; exacts [q2, q1], q3, by rw [q4], trivial⟩
    rw [h.glob] at hfit'
    obtain ⟨hts, hgl⟩ := fit_recode hrec hA hcomp (fun _ => trivial) hc hc' (fun _ => rfl) hfit hfit'
    have hF : Fitted R (mem i) _ t := ⟨t0, _, _, hc, hfit⟩
    have hF' : Fitted R (mem' i) _ t' := ⟨t0', _, _, hc', hfit'⟩
    rw [hts.queries] at hk'
    rcases hk with ⟨hkeep, rfl, ⟨o, rfl⟩, rfl⟩ | ⟨hkeep, rfl, t2, o, hbo, hf1⟩
    · rcases hk' with ⟨_, rfl, ⟨o', rfl⟩, rfl⟩ | ⟨hkeep', _⟩
      · exact ⟨rfl, { h with rng := rfl, glob := congrArg Glob.np (hgl trivial), remaining := rfl }, rfl, rfl, rfl, fun q => by cases q⟩
      · rw [hkeep] at hkeep'
        cases hkeep'
    · rcases hk' with ⟨hkeep', _⟩ | ⟨_, rfl, t2', o', hbo', hf1'⟩
      · rw [hkeep] at hkeep'
        cases hkeep'
      obtain ⟨ha1, ha2, ha3⟩ := boostStep_after hbo
      obtain ⟨ha1', ha2', ha3'⟩ := boostStep_after hbo'
      have hpred : ∀ x, (t2'.predict (recodeRow φ x)).map Prod.fst =
          ((t2.predict x).map Prod.fst).map (recodePred (psiAt f.cfg.boosting ψ ψ1 f.trees.length)) := by
        intro x
        obtain ⟨dd, s0, ff⟩ := hF.facts
        obtain ⟨dd', s0', ff'⟩ := hF'.facts
        rw [(predict_cache (ha1.cache ff.cache) x).1, (predict_cache (ha1'.cache ff'.cache) (recodeRow φ x)).1]
        refine purePredict_recode hrec ff ff' hts hr.classesOK (fun q => ?_) x
        unfold psiAt
        split_ifs
        · exact hr.mean1 q
        · exact hr.mean q
      have hlab1 : f1.labelRef = f.labelRef := by rw [hf1]; rfl
      have hlab1' : f1'.labelRef = f'.labelRef := by rw [hf1']; rfl
      have hcfg1 : f1.cfg = f.cfg := by rw [hf1]
      have htr1 : f1.trees = f.trees ++ [t2] := by rw [hf1]
      have htr1' : f1'.trees = f'.trees ++ [t2'] := by rw [hf1']
      refine ⟨rfl, ?_, hcfg1, by rw [hf1], by rw [hf1], fun _ => by rw [htr1]; simp⟩
      exact {
        cfg := by rw [hf1, hf1']; exact h.cfg
        classes := by rw [hf1, hf1']; exact h.classes
        disc := by rw [hf1]; exact h.disc
        disc' := by rw [hf1']; exact h.disc'
        minmax := by rw [hf1, hf1']; exact h.minmax
        remaining := by rw [hf1, hf1']
        rng := by rw [hf1, hf1']
        queries := by rw [hf1, hf1']; simp only [h.queries]
        glob := by rw [ha2, ha2']; exact congrArg Glob.np (hgl trivial)
        len := by rw [htr1, htr1']; simp [h.len]
        alike := by
          rw [hcfg1, htr1, htr1']
          intro j u u' hu hu' x
          rcases Nat.lt_or_ge j f.trees.length with hj | hj
          · rw [List.getElem?_append_left hj] at hu
            rw [List.getElem?_append_left (by rw [h.len]; exact hj)] at hu'
            exact h.alike j u u' hu hu' x
          · rw [List.getElem?_append_right hj] at hu
            rw [List.getElem?_append_right (by rw [h.len]; exact hj), h.len] at hu'
            have hj0 : j - f.trees.length = 0 := by
              by_contra hne
              obtain ⟨k, hk⟩ := Nat.exists_eq_succ_of_ne_zero hne
              rw [hk] at hu
              cases hu
            rw [hj0] at hu hu'
            cases hu
            cases hu'
            have : j = f.trees.length := by omega
            subst this
            exact hpred x
        labels := by
          intro r r' hr1 hr1'
          rw [hlab1, hl] at hr1
          rw [hlab1', hl'] at hr1'
          obtain rfl := Option.some.inj hr1
          obtain rfl := Option.some.inj hr1'
          rw [hcfg1, htr1]
          cases hbt : f.cfg.boosting with
          | false =>
            rw [ha3 hbt, ha3' (by rw [h.cfg]; exact hbt)]
            have := h.labels ref ref' hl hl'
            rw [hbt] at this
            exact this
          | true =>
            obtain ⟨hcls, _, hd1, hd2⟩ := hr.boost hbt
            have hnr : f.newRef = some ref := by unfold Forest.labelRef at hl; rw [hbt, if_pos rfl] at hl; exact hl
            have hbt' : f'.cfg.boosting = true := by rw [h.cfg]; exact hbt
            have hnr' : f'.newRef = some ref' := by unfold Forest.labelRef at hl'; rw [hbt', if_pos rfl] at hl'; exact hl'
            rcases forestStep_cases hs with ⟨_, m, u, K1⟩ | ⟨q, _⟩
            swap
            · cases q
            rcases forestStep_cases hs' with ⟨_, m', u', K1'⟩ | ⟨q, _⟩
            swap
            · cases q
            have hu : u = t2 := by
              have e := K1.next
              have : f1.trees = f.trees ++ [u] := by rw [e]
              rw [htr1] at this
              simpa using (List.append_cancel_left this).symm
            have hu' : u' = t2' := by
              have e := K1'.next
              have : f1'.trees = f'.trees ++ [u'] := by rw [e]
              rw [htr1'] at this
              simpa using (List.append_cancel_left this).symm
            subst hu hu'
            have hne' : data' ≠ [] := by
              intro q
              have := hr.len
              rw [q] at this
              exact hne (List.length_eq_zero_iff.1 this.symm)
            have hwt : boostWeight f'.cfg i = boostWeight f.cfg i := by rw [h.cfg]; rfl
            have hlen1 : (f.trees ++ [u]).length ≠ 0 := by simp
            rcases h.labels ref ref' hl hl' with ⟨q, hp⟩ | ⟨hb, ha, hp, hpe⟩
            · have hlin : ∀ y, psiAt f.cfg.boosting ψ ψ1 f.trees.length y = ψ1 y := by
                rcases q with q | q
                · rw [hbt] at q; cases q
                · exact q
              have hnext : psiAt true ψ ψ1 (f.trees ++ [u]).length = ψ1 := by unfold psiAt; rw [if_pos ⟨rfl, hlen1⟩]
              rw [hnext]
              refine Or.inl ⟨Or.inr fun _ => rfl, ?_⟩
              have hmr : m'.args.rows = m.args.rows := by
                obtain ⟨r0, r1, c1, gg, d1, d2, d3, d4⟩ := K1.draw
                obtain ⟨r0', r1', c1', gg', d1', d2', d3', d4'⟩ := K1'.draw
                rw [h.rng, hr.len, h.cfg] at d1'
                rw [hr.len, h.cfg] at d2'
                have e1 : (Except.ok (r0', c1', gg') : Except Err _) = .ok (r0, c1, gg) := d1'.symm.trans d1
                cases e1
                have e2 : (Except.ok (r1', f1'.rng) : Except Err _) = .ok (r1, f1.rng) := d2'.symm.trans d2
                simp only [Except.ok.injEq, Prod.mk.injEq] at e2
                unfold TreeArgs.rows
                rw [d3, d3', e2.1]
                rfl
              obtain ⟨arr, arr1, a1, a2, a3, a4, a5, a6⟩ := K1.boosted_all hne hcls hbt ref hnr
              obtain ⟨arr', arr1', b1, b2, b3, b4, b5, b6⟩ := K1'.boosted_all hne' (by rw [h.cfg]; exact hcls) hbt' ref' hnr'
              have e1 : w.arrays.getD ref [] = arr := by rw [List.getD_eq_getElem?_getD, a1]; rfl
              have e2 : w1.arrays.getD ref [] = arr1 := by rw [List.getD_eq_getElem?_getD, a2]; rfl
              have e1' : w'.arrays.getD ref' [] = arr' := by rw [List.getD_eq_getElem?_getD, b1]; rfl
              have e2' : w1'.arrays.getD ref' [] = arr1' := by rw [List.getD_eq_getElem?_getD, b2]; rfl
              rw [e1, e1'] at hp
              rw [e2, e2']
              intro j hj
              have hpj := hp j hj
              unfold recodeSample at hpj ⊢
              simp only [Prod.mk.injEq] at hpj ⊢
              refine ⟨hpj.1, ?_⟩
              by_cases hjm : j ∈ m.args.rows
              · obtain ⟨v, v1, v2⟩ := a5 j hjm
                obtain ⟨v', v1', v2'⟩ := b5 j (by rw [hmr]; exact hjm)
                rw [hpj.1, hpred, v1] at v1'
                have hv' : v' = ψ1 v := by
                  cases v1'
                  exact hlin v
                rw [v2, v2', hpj.2, hlin, hwt, hv']
                exact hd2 _ _ _
              · rw [a6 j hjm, b6 j (by rw [hmr]; exact hjm), hpj.2, hlin]
            suffices hgoal : _ ∧ (f.cfg.solver ≠ .exact → _) from Or.inr ⟨hb, ha, hgoal⟩
            have hmrows : m.args.rows = List.range data.length := by
              obtain ⟨r0, r1, c1, gg, d1, d2, d3, d4⟩ := K1.draw
              unfold subsets at d1
              rw [if_neg ha] at d1
              cases d1
              unfold bootstrapIdcs at d2
              rw [hb, if_neg (by simp)] at d2
              simp only [Except.ok.injEq, Prod.mk.injEq] at d2
              unfold TreeArgs.rows
              rw [d3, ← d2.1]
              rfl
            have hmrows' : m'.args.rows = List.range data.length := by
              obtain ⟨r0, r1, c1, gg, d1, d2, d3, d4⟩ := K1'.draw
              unfold subsets at d1
              rw [h.cfg, if_neg ha] at d1
              cases d1
              unfold bootstrapIdcs at d2
              rw [h.cfg, show ({ f.cfg with minImpDec := s * f.cfg.minImpDec } : ForestCfg K).bootstrap = f.cfg.bootstrap from rfl, hb,
                if_neg (by simp)] at d2
              simp only [Except.ok.injEq, Prod.mk.injEq] at d2
              unfold TreeArgs.rows
              rw [d3, ← d2.1, hr.len]
              rfl
            obtain ⟨arr, arr1, a1, a2, a3, a4, a5⟩ := K1.boosted hne hcls hbt ref hnr
            obtain ⟨arr', arr1', b1, b2, b3, b4, b5⟩ := K1'.boosted hne' (by rw [h.cfg]; exact hcls) hbt' ref' hnr'
            rw [hmrows] at a5
            rw [hmrows'] at b5
            have e1 : w.arrays.getD ref [] = arr := by rw [List.getD_eq_getElem?_getD, a1]; rfl
            have e2 : w1.arrays.getD ref [] = arr1 := by rw [List.getD_eq_getElem?_getD, a2]; rfl
            have e1' : w'.arrays.getD ref' [] = arr' := by rw [List.getD_eq_getElem?_getD, b1]; rfl
            have e2' : w1'.arrays.getD ref' [] = arr1' := by rw [List.getD_eq_getElem?_getD, b2]; rfl
            rw [e1, e1'] at hp hpe
            rw [e2, e2']
            have s1 : (List.range data.length).map (fun i => (data.getD i [], arr1.getD i 0)) =
                ((List.range data.length).map (fun i => (data.getD i [], arr.getD i 0))).map
                  (fun p => (p.1, p.2 - boostWeight f.cfg i * regValue u p.1)) := by
              rw [List.map_map]
              refine List.map_congr_left (fun j hj => ?_)
              obtain ⟨v, v1, v2⟩ := a5 j hj
              simp only [Function.comp, v2]
              unfold regValue
              rw [v1]
            have s1' : (List.range data.length).map (fun i => (data'.getD i [], arr1'.getD i 0)) =
                ((List.range data.length).map (fun i => (data'.getD i [], arr'.getD i 0))).map
                  (fun p => (p.1, p.2 - boostWeight f.cfg i * regValue u' p.1)) := by
              rw [List.map_map]
              refine List.map_congr_left (fun j hj => ?_)
              obtain ⟨v, v1, v2⟩ := b5 j hj
              simp only [Function.comp, v2, hwt]
              unfold regValue
              rw [v1]
            rw [s1, s1']
            have key : ∀ {l' l : List (List K × K)}, l' = l → (l'.map (fun p => (p.1, p.2 - boostWeight f.cfg i * regValue u' p.1))) =
                l.map (fun p => (p.1, p.2 - boostWeight f.cfg i * regValue u' p.1)) := fun q => by rw [q]
            refine (fun hfin => ⟨(hp.map _).trans (List.Perm.of_eq hfin), fun q => (key (hpe q)).trans hfin⟩ : _ → _) ?_
            simp only [List.map_map]
            refine List.map_congr_left (fun j hj => ?_)
            obtain ⟨v, v1, _⟩ := a5 j hj
            have hv : regValue u (data.getD j []) = v := by unfold regValue; rw [v1]
            have hv' : regValue u' (recodeRow φ (data.getD j [])) = psiAt f.cfg.boosting ψ ψ1 f.trees.length v := by
              unfold regValue
              rw [hpred, v1]
              rfl
            simp only [Function.comp, recodeSample, hv, hv', Prod.mk.injEq, true_and]
            unfold psiAt boostWeight
            rw [hbt, hi]
            by_cases h0 : f.trees.length = 0
            · rw [if_neg (by rw [h0]; simp), if_pos h0, if_pos ⟨rfl, hlen1⟩, one_mul, one_mul]
              exact hd1 _ _
            · rw [if_pos ⟨rfl, h0⟩, if_neg h0, if_pos ⟨rfl, hlen1⟩]
              exact hd2 _ _ _ }

theorem ite_error_ok {α : Type} {c : Prop} [Decidable c] {x : Except Err α} {e : Err} {v : α}
    (h : (if c then x else .error e) = .ok v) : x = .ok v := by
  split_ifs at h
  exact h

theorem forestLoop_recode {F : Nat} (hne : data ≠ []) (n : Nat) :
    ∀ {k : Nat} {f f' f1 f1' : Forest K G} {w w' w1 w1' : World K G}, ForestRecode mem mem' f.cfg f.classes f.minmax data data' φ ψ ψ1 s →
      ForestSim data data' φ ψ ψ1 s f f' w w' → k = f.trees.length →
      forestLoop R mem data F (List.range' k n) f w = .ok (f1, w1) → forestLoop R mem' data' F (List.range' k n) f' w' = .ok (f1', w1') →
      ForestSim data data' φ ψ ψ1 s f1 f1' w1 w1' ∧ f1.cfg = f.cfg ∧ f1.classes = f.classes ∧ f1.minmax = f.minmax := by
  induction n with
  | zero =>
    intro k f f' f1 f1' w w' w1 w1' _ h _ hs hs'
    cases hs
    cases hs'
    exact ⟨h, rfl, rfl, rfl⟩
  | succ n ih =>
    intro k f f' f1 f1' w w' w1 w1' hr h hk hs hs'
    rw [List.range'_succ] at hs hs'
    unfold forestLoop at hs hs'
    cases h2 : forestStep R mem data F k f w with
    | error e => rw [h2] at hs; cases hs
    | ok q =>
      obtain ⟨b, f2, w2⟩ := q
      rw [h2] at hs
      cases h2' : forestStep R mem' data' F k f' w' with
      | error e => rw [h2'] at hs'; cases hs'
      | ok q =>
        obtain ⟨b', f2', w2'⟩ := q
        rw [h2'] at hs'
        obtain ⟨rfl, a1, a2, a3, a4, a5⟩ := forestStep_recode hne hr h hk h2 h2'
        cases b' with
        | false =>
          cases hs
          cases hs'
          exact ⟨a1, a2, a3, a4⟩
        | true =>
          simp only [] at hs hs'
          obtain ⟨c1, c2, c3, c4⟩ := ih (by rw [a2, a3, a4]; exact hr) a1 (by rw [a5 rfl, hk]) (ite_error_ok hs) (ite_error_ok hs')
          exact ⟨c1, c2.trans a2, c3.trans a3, c4.trans a4⟩

end FF
