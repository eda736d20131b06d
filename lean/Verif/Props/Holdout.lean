import Verif.Spec.Holdout
import Verif.Model.Instances

/-!
# C153: rows that are kept back are kept back
-/

namespace FF

open Spec

variable {K : Type} [Field K] [LinearOrder K] [IsStrictOrderedRing K] [FloorRing K] [NpFun K] {G : Type}

set_option linter.unusedSectionVars false

theorem map_some_getD {α : Type} (l : List α) (d : α) (I : List Nat) (h : ∀ i ∈ I, i < l.length) :
    (I.map (fun i => l.getD i d)).map some = I.map (fun i => l[i]?) := by
  rw [List.map_map]
  refine List.map_congr_left (fun i hi => ?_)
  simp [List.getD_eq_getElem?_getD, List.getElem?_eq_getElem (h i hi)]

theorem rowsOf_map (X : List (List K)) (Y : List K) (I : List Nat) (hX : ∀ i ∈ I, i < X.length) (hY : ∀ i ∈ I, i < Y.length) :
    RowsOf X Y I (I.map (fun i => X.getD i [])) (I.map (fun i => Y.getD i 0)) :=
  ⟨map_some_getD X [] I hX, map_some_getD Y 0 I hY⟩

theorem rowsOf_length {X : List (List K)} {Y : List K} {I : List Nat} {x : List (List K)} {y : List K} (h : RowsOf X Y I x y) :
    x.length = I.length ∧ y.length = I.length := by
  have h1 := congrArg List.length h.1
  have h2 := congrArg List.length h.2
  simp only [List.length_map] at h1 h2
  exact ⟨h1, h2⟩

/-- Numbers of numbers. -/
def through (I J : List Nat) : List Nat := J.map (fun j => I.getD j 0)

theorem through_some {α : Type} {l x : List α} {I : List Nat} (h : x.map some = I.map (fun i => l[i]?)) (J : List Nat)
    (hJ : ∀ j ∈ J, j < I.length) : J.map (fun j => x[j]?) = (through I J).map (fun i => l[i]?) := by
  unfold through
  rw [List.map_map]
  refine List.map_congr_left (fun j hj => ?_)
  have hl : j < I.length := hJ j hj
  have e : (x.map some)[j]? = (I.map (fun i => l[i]?))[j]? := by rw [h]
  rw [List.getElem?_map, List.getElem?_map, List.getElem?_eq_getElem hl] at e
  simp only [Function.comp, List.getD_eq_getElem?_getD, List.getElem?_eq_getElem hl, Option.getD_some]
  cases hx : x[j]? with
  | none => rw [hx] at e; simp at e
  | some v => rw [hx] at e; simpa using e

theorem rowsOf_through {X : List (List K)} {Y : List K} {I J : List Nat} {x x' : List (List K)} {y y' : List K} (h : RowsOf X Y I x y)
    (h' : RowsOf x y J x' y') (hJ : ∀ j ∈ J, j < I.length) : RowsOf X Y (through I J) x' y' :=
  ⟨h'.1.trans (through_some h.1 J hJ), h'.2.trans (through_some h.2 J hJ)⟩

theorem through_append (I J L : List Nat) : through I (J ++ L) = through I J ++ through I L := List.map_append

theorem through_length (I J : List Nat) : (through I J).length = J.length := List.length_map _

theorem through_nodup {I J : List Nat} (hI : I.Nodup) (hJ : J.Nodup) (hb : ∀ j ∈ J, j < I.length) : (through I J).Nodup := by
  refine List.Nodup.map_on (fun a ha b hb' e => ?_) hJ
  simp only [List.getD_eq_getElem?_getD, List.getElem?_eq_getElem (hb a ha), List.getElem?_eq_getElem (hb b hb'), Option.getD_some] at e
  exact (List.Nodup.getElem_inj_iff hI).1 e

theorem through_mem {I J : List Nat} (hb : ∀ j ∈ J, j < I.length) {i : Nat} (h : i ∈ through I J) : i ∈ I := by
  obtain ⟨j, hj, rfl⟩ := List.mem_map.1 h
  rw [List.getD_eq_getElem?_getD, List.getElem?_eq_getElem (hb j hj)]
  exact List.getElem_mem _

theorem through_range (I : List Nat) : through I (List.range I.length) = I := by
  unfold through
  refine List.ext_getElem (by simp) (fun j h1 h2 => ?_)
  simp [List.getD_eq_getElem?_getD, List.getElem?_eq_getElem h2]

theorem through_perm {I J : List Nat} (h : J.Perm (List.range I.length)) : (through I J).Perm I := by
  have := h.map (fun j => I.getD j 0)
  have e := through_range I
  unfold through at e
  rw [e] at this
  exact this

/-- C153: a subset of the rows is drawn by number: no row twice, every row with its own label, and which rows depends on the seed and the sizes only. -/
theorem C153_subset (R : Rng K G) (n size seed : Nat) (h : size ≤ n) :
    ∃ I : List Nat, I.Nodup ∧ I.length = size ∧ (∀ i ∈ I, i < n) ∧
      ∀ (X : List (List K)) (Y : List K), X.length = n → Y.length = n → ∃ (x : List (List K)) (y : List K),
        getSubset R X Y size seed = .ok (x, y) ∧ RowsOf X Y I x y := by
  refine ⟨(R.choice (R.seed seed) n size).1, R.choice_nodup _ _ _ h, R.choice_length _ _ _ h, R.choice_lt _ _ _ h, ?_⟩
  intro X Y hX hY
  have hb := R.choice_lt (R.seed seed) n size h
  refine ⟨_, _, ?_, rowsOf_map X Y _ (by rw [hX]; exact hb) (by rw [hY]; exact hb)⟩
  unfold getSubset
  rw [if_neg (by omega), if_neg (by omega)]
  dsimp only
  rw [hY]
  unfold takeE
  rw [if_pos (List.all_eq_true.2 (fun i hi => decide_eq_true (by rw [hX]; exact hb i hi))),
    if_pos (List.all_eq_true.2 (fun i hi => decide_eq_true (by rw [hY]; exact hb i hi)))]

/-- C153: more rows than there are cannot be drawn, nor rows of which some have no label. -/
theorem C153_subset_refuses (R : Rng K G) (X : List (List K)) (Y : List K) (size seed : Nat) (h : Y.length < size ∨ X.length ≠ Y.length) :
    ∃ msg, getSubset R X Y size seed = .error (.assertion msg) := by
  unfold getSubset
  by_cases h1 : Y.length < size
  · exact ⟨_, if_pos h1⟩
  · rw [if_neg h1, if_pos (h.resolve_left h1)]
    exact ⟨_, rfl⟩

/-- C153: a split puts every row, with its own label, into exactly one of the two parts. The test part has the asked share of the rows, rounded
up. Which rows these are depends on the seed, the share and the number of rows only. -/
theorem C153_split (R : Rng K G) (n seed : Nat) (p : K) (h0 : 0 < p) (h1 : p < 1) (hn : ⌈p * (n : K)⌉ < (n : ℤ)) :
    ∃ I J : List Nat, (I ++ J).Perm (List.range n) ∧ I ≠ [] ∧ (J.length : ℤ) = ⌈p * (n : K)⌉ ∧
      ∀ (X : List (List K)) (Y : List K), X.length = n → Y.length = n → ∃ t : TwoParts K,
        trainTestSplit R X Y p seed = .ok t ∧ RowsOf X Y I t.xTrain t.yTrain ∧ RowsOf X Y J t.xTest t.yTest := by
  have hnn : (0 : ℤ) ≤ ⌈p * (n : K)⌉ := Int.ceil_nonneg (by positivity)
  have hlt : ⌈p * (n : K)⌉.toNat < n := by omega
  have hperm := R.shuffle_perm (R.seed seed) n
  have hlen : (R.shuffle (R.seed seed) n).1.length = n := by simpa using hperm.length_eq
  have hmem : ∀ i ∈ (R.shuffle (R.seed seed) n).1, i < n := fun i hi => List.mem_range.1 (hperm.mem_iff.1 hi)
  refine ⟨(R.shuffle (R.seed seed) n).1.drop ⌈p * (n : K)⌉.toNat, (R.shuffle (R.seed seed) n).1.take ⌈p * (n : K)⌉.toNat, ?_, ?_, ?_, ?_⟩
  · refine (List.perm_append_comm).trans ?_
    rw [List.take_append_drop]
    exact hperm
  · intro e
    have := congrArg List.length e
    rw [List.length_drop, hlen] at this
    simp only [List.length_nil] at this
    omega
  · rw [List.length_take, hlen, Nat.min_eq_left hlt.le]
    omega
  · intro X Y hX hY
    refine ⟨⟨_, _, _, _⟩, ?_, rowsOf_map X Y _ (fun i hi => ?_) (fun i hi => ?_), rowsOf_map X Y _ (fun i hi => ?_) (fun i hi => ?_)⟩
    · unfold trainTestSplit
      rw [if_neg (by omega), if_neg (by rintro (h | h); exact absurd h0 (not_lt.2 h); exact absurd h1 (not_lt.2 h))]
      dsimp only
      rw [hX, if_neg (by omega)]
    · rw [hX]; exact hmem i (List.mem_of_mem_drop hi)
    · rw [hY]; exact hmem i (List.mem_of_mem_drop hi)
    · rw [hX]; exact hmem i (List.mem_of_mem_take hi)
    · rw [hY]; exact hmem i (List.mem_of_mem_take hi)

/-- C153: a split is refused exactly if a row has no label, the share is not a share or no row would be left to train on. -/
theorem C153_split_ok (R : Rng K G) (X : List (List K)) (Y : List K) (p : K) (seed : Nat) :
    (∃ t : TwoParts K, trainTestSplit R X Y p seed = .ok t) ↔
      X.length = Y.length ∧ 0 < p ∧ p < 1 ∧ ⌈p * (X.length : K)⌉ < (X.length : ℤ) := by
  constructor
  · rintro ⟨t, ht⟩
    unfold trainTestSplit at ht
    by_cases h : X.length ≠ Y.length
    · rw [if_pos h] at ht; cases ht
    rw [if_neg h] at ht
    by_cases hp : p ≤ 0 ∨ 1 ≤ p
    · rw [if_pos hp] at ht; cases ht
    rw [if_neg hp] at ht
    push Not at hp
    dsimp only at ht
    by_cases hn : X.length ≤ ⌈p * (X.length : K)⌉.toNat
    · rw [if_pos hn] at ht; cases ht
    exact ⟨not_not.1 h, hp.1, hp.2, by omega⟩
  · rintro ⟨h, h0, h1, hn⟩
    obtain ⟨_, _, _, _, _, hs⟩ := C153_split R X.length seed p h0 h1 hn
    obtain ⟨t, ht, _⟩ := hs X Y rfl h.symm
    exact ⟨t, ht⟩

/-- The two splits in a row. -/
theorem split_twice (R : Rng K G) (n seed : Nat) (p q : K) (hp0 : 0 < p) (hp1 : p < 1) (hn : ⌈p * (n : K)⌉ < (n : ℤ)) (hq0 : 0 < q) (hq1 : q < 1)
    (hm : ⌈q * (((n : ℤ) - ⌈p * (n : K)⌉ : ℤ) : K)⌉ < (n : ℤ) - ⌈p * (n : K)⌉) :
    ∃ I J L : List Nat, (I ++ J ++ L).Perm (List.range n) ∧ I ≠ [] ∧ (L.length : ℤ) = ⌈p * (n : K)⌉ ∧
      (J.length : ℤ) = ⌈q * (((n : ℤ) - ⌈p * (n : K)⌉ : ℤ) : K)⌉ ∧
      ∀ (X : List (List K)) (Y : List K), X.length = n → Y.length = n → ∃ a b : TwoParts K,
        trainTestSplit R X Y p seed = .ok a ∧ trainTestSplit R a.xTrain a.yTrain q seed = .ok b ∧
        RowsOf X Y I b.xTrain b.yTrain ∧ RowsOf X Y J b.xTest b.yTest ∧ RowsOf X Y L a.xTest a.yTest := by
  obtain ⟨A, L, hperm, -, hL, hs⟩ := C153_split R n seed p hp0 hp1 hn
  have hAL : A.length + L.length = n := by simpa using hperm.length_eq
  have hA : (A.length : ℤ) = (n : ℤ) - ⌈p * (n : K)⌉ := by omega
  have hAK : (((n : ℤ) - ⌈p * (n : K)⌉ : ℤ) : K) = (A.length : K) := by rw [← hA, Int.cast_natCast]
  rw [hAK, ← hA] at hm
  obtain ⟨I, J, hperm2, hI, hJ, hs2⟩ := C153_split R A.length seed q hq0 hq1 hm
  have hb : ∀ i ∈ I ++ J, i < A.length := fun i hi => List.mem_range.1 (hperm2.mem_iff.1 hi)
  refine ⟨through A I, through A J, L, ?_, ?_, hL, ?_, ?_⟩
  · rw [← through_append]
    exact ((through_perm hperm2).append_right L).trans hperm
  · intro e
    have := congrArg List.length e
    rw [through_length] at this
    exact hI (List.length_eq_zero_iff.1 (by simpa using this))
  · rw [through_length, hAK, hJ]
  · intro X Y hX hY
    obtain ⟨a, ha, h1, h2⟩ := hs X Y hX hY
    obtain ⟨e1, e2⟩ := rowsOf_length h1
    obtain ⟨b, hb2, h3, h4⟩ := hs2 a.xTrain a.yTrain e1 e2
    exact ⟨a, b, ha, hb2, rowsOf_through h1 h3 (fun j hj => hb j (List.mem_append_left _ hj)),
      rowsOf_through h1 h4 (fun j hj => hb j (List.mem_append_right _ hj)), h2⟩

/-- The share of the validation rows among those that are not for testing. -/
theorem share_eq (r0 r1 s : K) (hs : s ≠ 0) : (r1 / s) / (r0 / s + r1 / s) = r1 / (r0 + r1) := by
  rw [← add_div, div_div_div_cancel_right₀ hs]

theorem subsetOrAll_rows (R : Rng K G) (n : Nat) (size : Option Nat) (seed : Nat) :
    ∃ P : List Nat, P.Nodup ∧ (∀ i ∈ P, i < n) ∧ ∀ (X : List (List K)) (Y : List K), X.length = n → Y.length = n →
      ∀ (x : List (List K)) (y : List K), subsetOrAll R X Y size seed = .ok (x, y) → RowsOf X Y P x y ∧ P.length = size.getD n := by
  cases size with
  | none =>
    refine ⟨List.range n, List.nodup_range, fun i hi => List.mem_range.1 hi, ?_⟩
    intro X Y hX hY x y h
    simp only [subsetOrAll, Except.ok.injEq, Prod.mk.injEq] at h
    obtain ⟨rfl, rfl⟩ := h
    refine ⟨⟨?_, ?_⟩, by simp⟩
    · refine List.ext_getElem (by simp [hX]) (fun j h1 h2 => ?_)
      simp
    · refine List.ext_getElem (by simp [hY]) (fun j h1 h2 => ?_)
      simp
  | some m =>
    by_cases hm : m ≤ n
    · obtain ⟨I, h1, h2, h3, h4⟩ := C153_subset R n m seed hm
      refine ⟨I, h1, h3, fun X Y hX hY x y h => ?_⟩
      obtain ⟨x', y', h5, h6⟩ := h4 X Y hX hY
      simp only [subsetOrAll, h5, Except.ok.injEq, Prod.mk.injEq] at h
      obtain ⟨rfl, rfl⟩ := h
      exact ⟨h6, h2⟩
    · refine ⟨[], List.nodup_nil, by simp, fun X Y hX hY x y h => ?_⟩
      obtain ⟨msg, e⟩ := C153_subset_refuses R X Y m seed (Or.inl (by omega))
      simp only [subsetOrAll, e] at h
      cases h

/-- C153: `split_data` puts rows into three parts, none twice, each with its own label; the parts have the asked shares. Which rows they get depends
on the number of rows, the ratio, the size and the seed, not on what is in the rows, so all the programs that use the same seed keep the same rows back. -/
theorem C153_three (R : Rng K G) (n : Nat) (r0 r1 r2 : K) (size : Option Nat) (seed : Nat) :
    ∃ I J L : List Nat, Apart n I J L ∧ ∀ (X : List (List K)) (Y : List K), X.length = n → Y.length = n →
      ∀ t : ThreeParts K, splitData R X Y r0 r1 r2 size seed false = .ok t →
        RowsOf X Y I t.xTrain t.yTrain ∧ RowsOf X Y J t.xVal t.yVal ∧ RowsOf X Y L t.xTest t.yTest ∧
        SplitSizes r0 r1 r2 (size.getD n) I J L := by
  obtain ⟨P, hP1, hP2, hP3⟩ := subsetOrAll_rows (K := K) R n size seed
  have hfalse : (if false = true then underSample R [] [] seed else .ok (([] : List (List K)), ([] : List K))) = .ok ([], []) := rfl
  by_cases hfe : (0 < r2 / (r0 + r1 + r2) ∧ r2 / (r0 + r1 + r2) < 1 ∧ ⌈r2 / (r0 + r1 + r2) * (P.length : K)⌉ < (P.length : ℤ)) ∧
      0 < r1 / (r0 + r1) ∧ r1 / (r0 + r1) < 1 ∧
      ⌈r1 / (r0 + r1) * (((P.length : ℤ) - ⌈r2 / (r0 + r1 + r2) * (P.length : K)⌉ : ℤ) : K)⌉ < (P.length : ℤ) - ⌈r2 / (r0 + r1 + r2) * (P.length : K)⌉
  · obtain ⟨⟨hp0, hp1, hn⟩, hq0, hq1, hm⟩ := hfe
    have hs : r0 + r1 + r2 ≠ 0 := fun e => by rw [e, div_zero] at hp0; exact lt_irrefl _ hp0
    obtain ⟨I, J, L, hperm, hI, hL, hJ, hsp⟩ := split_twice R P.length seed _ _ hp0 hp1 hn hq0 hq1 hm
    have hb : ∀ i ∈ I ++ J ++ L, i < P.length := fun i hi => List.mem_range.1 (hperm.mem_iff.1 hi)
    have hbI : ∀ i ∈ I, i < P.length := fun i hi => hb i (List.mem_append_left _ (List.mem_append_left _ hi))
    have hbJ : ∀ i ∈ J, i < P.length := fun i hi => hb i (List.mem_append_left _ (List.mem_append_right _ hi))
    have hbL : ∀ i ∈ L, i < P.length := fun i hi => hb i (List.mem_append_right _ hi)
    refine ⟨through P I, through P J, through P L, ⟨?_, ?_⟩, ?_⟩
    · rw [← through_append, ← through_append]
      exact through_nodup hP1 (hperm.nodup_iff.2 List.nodup_range) hb
    · rw [← through_append, ← through_append]
      exact fun i hi => hP2 i (through_mem hb hi)
    · intro X Y hX hY t ht
      unfold splitData at ht
      dsimp only at ht
      rw [if_neg Bool.false_ne_true] at ht
      dsimp only at ht
      cases hsub : subsetOrAll R X Y size seed with
      | error e => rw [hsub] at ht; cases ht
      | ok xy =>
        obtain ⟨x, y⟩ := xy
        rw [hsub] at ht
        dsimp only at ht
        obtain ⟨hr, hN⟩ := hP3 X Y hX hY x y hsub
        obtain ⟨e1, e2⟩ := rowsOf_length hr
        obtain ⟨a, b, ha, hb', h1, h2, h3⟩ := hsp x y e1 e2
        rw [ha] at ht
        dsimp only at ht
        rw [share_eq _ _ _ hs, hb'] at ht
        cases ht
        refine ⟨rowsOf_through hr h1 hbI, rowsOf_through hr h2 hbJ, rowsOf_through hr h3 hbL, ?_, ?_, ?_, ?_⟩
        · rw [through_length, through_length, through_length, ← hN]
          simpa [Nat.add_assoc] using hperm.length_eq
        · intro e
          have := congrArg List.length e
          rw [through_length] at this
          exact hI (List.length_eq_zero_iff.1 (by simpa using this))
        · rw [through_length, ← hN, hL]
        · rw [through_length, through_length, ← hN, hJ, ← hL]
          push_cast
          rfl
  · refine ⟨[], [], [], ⟨by simp, by simp⟩, ?_⟩
    intro X Y hX hY t ht
    exfalso
    apply hfe
    unfold splitData at ht
    dsimp only at ht
    rw [if_neg Bool.false_ne_true] at ht
    dsimp only at ht
    cases hsub : subsetOrAll R X Y size seed with
    | error e => rw [hsub] at ht; cases ht
    | ok xy =>
      obtain ⟨x, y⟩ := xy
      rw [hsub] at ht
      dsimp only at ht
      obtain ⟨hr, hN⟩ := hP3 X Y hX hY x y hsub
      obtain ⟨e1, e2⟩ := rowsOf_length hr
      cases ha : trainTestSplit R x y (r2 / (r0 + r1 + r2)) seed with
      | error e => rw [ha] at ht; cases ht
      | ok a =>
        rw [ha] at ht
        dsimp only at ht
        obtain ⟨-, hp0, hp1, hn⟩ := (C153_split_ok R x y _ seed).1 ⟨a, ha⟩
        rw [e1] at hn
        have hs : r0 + r1 + r2 ≠ 0 := fun e => by rw [e, div_zero] at hp0; exact lt_irrefl _ hp0
        rw [share_eq _ _ _ hs] at ht
        cases hb : trainTestSplit R a.xTrain a.yTrain (r1 / (r0 + r1)) seed with
        | error e => rw [hb] at ht; cases ht
        | ok b =>
          obtain ⟨-, hq0, hq1, hm⟩ := (C153_split_ok R _ _ _ seed).1 ⟨b, hb⟩
          obtain ⟨A, L, hperm, -, hL, hsp⟩ := C153_split R P.length seed _ hp0 hp1 hn
          obtain ⟨a', ha', h1, -⟩ := hsp x y e1 e2
          rw [ha] at ha'
          cases ha'
          have hAL : A.length + L.length = P.length := by simpa using hperm.length_eq
          have hA : (A.length : ℤ) = (P.length : ℤ) - ⌈r2 / (r0 + r1 + r2) * (P.length : K)⌉ := by omega
          rw [(rowsOf_length h1).1] at hm
          refine ⟨⟨hp0, hp1, hn⟩, hq0, hq1, ?_⟩
          rw [← hA, Int.cast_natCast]
          exact hm

/-- C153: what is in the rows that are kept back has no influence on what is trained on. -/
theorem C153_no_leak (R : Rng K G) (n : Nat) (r0 r1 r2 : K) (size : Option Nat) (seed : Nat) :
    ∃ I J L : List Nat, Apart n I J L ∧ ∀ (X X' : List (List K)) (Y Y' : List K), X.length = n → Y.length = n → X'.length = n → Y'.length = n →
      ∀ t t' : ThreeParts K, splitData R X Y r0 r1 r2 size seed false = .ok t → splitData R X' Y' r0 r1 r2 size seed false = .ok t' →
        J.length = t.xVal.length ∧ L.length = t.xTest.length ∧
        ((∀ i, i ∉ J → i ∉ L → X[i]? = X'[i]? ∧ Y[i]? = Y'[i]?) → t.xTrain = t'.xTrain ∧ t.yTrain = t'.yTrain) := by
  obtain ⟨I, J, L, hA, h⟩ := C153_three R n r0 r1 r2 size seed
  refine ⟨I, J, L, hA, ?_⟩
  intro X X' Y Y' h1 h2 h3 h4 t t' ht ht'
  obtain ⟨a1, a2, a3, -⟩ := h X Y h1 h2 t ht
  obtain ⟨b1, -, -, -⟩ := h X' Y' h3 h4 t' ht'
  refine ⟨(rowsOf_length a2).1.symm, (rowsOf_length a3).1.symm, fun hag => ?_⟩
  have hI : ∀ i ∈ I, i ∉ J ∧ i ∉ L := by
    intro i hi
    have hn := hA.1
    rw [List.append_assoc, List.nodup_append] at hn
    refine ⟨fun hj => ?_, fun hl => ?_⟩
    · exact hn.2.2 i hi i (List.mem_append_left _ hj) rfl
    · exact hn.2.2 i hi i (List.mem_append_right _ hl) rfl
  have hinj : Function.Injective (some : List K → Option (List K)) := fun _ _ e => Option.some.inj e
  have hinj' : Function.Injective (some : K → Option K) := fun _ _ e => Option.some.inj e
  constructor
  · refine (List.map_injective_iff.2 hinj) ?_
    rw [a1.1, b1.1]
    exact List.map_congr_left (fun i hi => (hag i (hI i hi).1 (hI i hi).2).1)
  · refine (List.map_injective_iff.2 hinj') ?_
    rw [a1.2, b1.2]
    exact List.map_congr_left (fun i hi => (hag i (hI i hi).1 (hI i hi).2).2)

/-- C153: the ratio of the heart experiments can be met from three rows on. -/
theorem C153_heart_ratio (R : Rng K G) (X : List (List K)) (Y : List K) (size : Option Nat) (seed : Nat) (hXY : X.length = Y.length)
    (h3 : 3 ≤ size.getD Y.length) (hle : size.getD Y.length ≤ Y.length) :
    ∃ t : ThreeParts K, splitData R X Y (3 / 5) (1 / 5) (1 / 5) size seed false = .ok t := by
  have hsub : ∃ (x : List (List K)) (y : List K), subsetOrAll R X Y size seed = .ok (x, y) := by
    cases size with
    | none => exact ⟨X, Y, rfl⟩
    | some m =>
      obtain ⟨_, -, -, -, h⟩ := C153_subset (K := K) R Y.length m seed hle
      obtain ⟨x, y, e, -⟩ := h X Y hXY rfl
      exact ⟨x, y, e⟩
  obtain ⟨x, y, hsub⟩ := hsub
  obtain ⟨P, -, -, hP⟩ := subsetOrAll_rows (K := K) R Y.length size seed
  obtain ⟨hr, hN⟩ := hP X Y hXY rfl x y hsub
  obtain ⟨e1, e2⟩ := rowsOf_length hr
  rw [hN] at e1 e2
  generalize size.getD Y.length = N at *
  have hNK : (3 : K) ≤ (N : K) := by exact_mod_cast h3
  have hc : ⌈(1 / 5 : K) * (N : K)⌉ ≤ (N : ℤ) - 2 := by
    rw [Int.ceil_le]
    push_cast
    linarith
  have hd : ⌈(1 / 4 : K) * (((N : ℤ) - ⌈(1 / 5 : K) * (N : K)⌉ : ℤ) : K)⌉ < (N : ℤ) - ⌈(1 / 5 : K) * (N : K)⌉ := by
    generalize ⌈(1 / 5 : K) * (N : K)⌉ = c at hc
    have hM : (2 : ℤ) ≤ (N : ℤ) - c := by omega
    generalize (N : ℤ) - c = M at hM
    have hMK : (2 : K) ≤ (M : K) := by exact_mod_cast hM
    have : ⌈(1 / 4 : K) * (M : K)⌉ ≤ M - 1 := by
      rw [Int.ceil_le]
      push_cast
      linarith
    omega
  obtain ⟨_, _, _, -, -, -, -, hsp⟩ := split_twice R N seed (1 / 5 : K) (1 / 4) (by norm_num) (by norm_num) (by omega) (by norm_num) (by norm_num) hd
  obtain ⟨a, b, ha, hb, -⟩ := hsp x y e1 e2
  have f1 : (1 / 5 : K) / (3 / 5 + 1 / 5 + 1 / 5) = 1 / 5 := by norm_num
  have f2 : (1 / 5 : K) / (3 / 5 + 1 / 5 + 1 / 5) / (3 / 5 / (3 / 5 + 1 / 5 + 1 / 5) + 1 / 5 / (3 / 5 + 1 / 5 + 1 / 5)) = 1 / 4 := by norm_num
  refine ⟨⟨b.xTrain, b.xTest, a.xTest, b.yTrain, b.yTest, a.yTest⟩, ?_⟩
  unfold splitData
  dsimp only
  rw [if_neg Bool.false_ne_true]
  dsimp only
  rw [hsub]
  dsimp only
  rw [f2, f1, ha]
  dsimp only
  rw [hb]

theorem mem_rowsWith {c : K} {Y : List K} {i : Nat} : i ∈ rowsWith c Y ↔ i < Y.length ∧ Y.getD i 0 = c := by
  simp [rowsWith]

theorem rowsWith_nodup (c : K) (Y : List K) : (rowsWith c Y).Nodup := List.nodup_range.filter _

theorem map_getD_range (Y : List K) : (List.range Y.length).map (fun i => Y.getD i 0) = Y := by
  refine List.ext_getElem (by simp) (fun j h1 h2 => ?_)
  simp [List.getD_eq_getElem?_getD, List.getElem?_eq_getElem h2]

theorem rowsWith_length (c : K) (Y : List K) : (rowsWith c Y).length = Y.count c := by
  unfold rowsWith
  rw [← List.countP_eq_length_filter]
  conv_rhs => rw [← map_getD_range Y, List.count, List.countP_map]
  refine List.countP_congr (fun i _ => ?_)
  simp

/-- The rows of one class. -/
theorem underRows_cons (R : Rng K G) (Y : List K) (least : Option K) (m : Nat) (hleast : ∀ c, least = some c → Y.count c = m) (c : K) (cs : List K)
    (hm : m ≤ Y.count c) (g : G) :
    ∃ (P : List Nat) (g' : G), underRows R Y least m (c :: cs) g = P ++ underRows R Y least m cs g' ∧ P.Nodup ∧ P.length = m ∧
      ∀ i ∈ P, i < Y.length ∧ Y.getD i 0 = c := by
  rw [underRows]
  by_cases h : least = some c
  · rw [if_pos h]
    exact ⟨rowsWith c Y, g, rfl, rowsWith_nodup c Y, by rw [rowsWith_length, hleast c h], fun i hi => mem_rowsWith.1 hi⟩
  · rw [if_neg h]
    have hm' : m ≤ (rowsWith c Y).length := by rw [rowsWith_length]; exact hm
    have hb := R.choice_lt g _ m hm'
    refine ⟨through (rowsWith c Y) (R.choice g (rowsWith c Y).length m).1, _, rfl,
      through_nodup (rowsWith_nodup c Y) (R.choice_nodup g _ m hm') hb, ?_, fun i hi => mem_rowsWith.1 (through_mem hb hi)⟩
    rw [through_length, R.choice_length g _ m hm']

theorem underRows_spec (R : Rng K G) (Y : List K) (least : Option K) (m : Nat) (hleast : ∀ c, least = some c → Y.count c = m) (cs : List K) :
    ∀ g : G, cs.Nodup → (∀ c ∈ cs, m ≤ Y.count c) → (underRows R Y least m cs g).Nodup ∧
      (∀ i ∈ underRows R Y least m cs g, i < Y.length ∧ Y.getD i 0 ∈ cs) ∧
      ∀ c ∈ cs, ((underRows R Y least m cs g).map (fun i => Y.getD i 0)).count c = m := by
  induction cs with
  | nil => intro g _ _; simp [underRows]
  | cons c cs ih =>
    intro g hnd hm
    obtain ⟨P, g', e, hP1, hP2, hP3⟩ := underRows_cons R Y least m hleast c cs (hm c List.mem_cons_self) g
    obtain ⟨h1, h2, h3⟩ := ih g' (List.nodup_cons.1 hnd).2 (fun d hd => hm d (List.mem_cons_of_mem _ hd))
    have hc := (List.nodup_cons.1 hnd).1
    rw [e]
    refine ⟨?_, ?_, ?_⟩
    · rw [List.nodup_append]
      refine ⟨hP1, h1, fun i hi j hj e' => ?_⟩
      subst e'
      exact hc (by rw [← (hP3 i hi).2]; exact (h2 i hj).2)
    · intro i hi
      rcases List.mem_append.1 hi with hi | hi
      · exact ⟨(hP3 i hi).1, by rw [(hP3 i hi).2]; exact List.mem_cons_self⟩
      · exact ⟨(h2 i hi).1, List.mem_cons_of_mem _ (h2 i hi).2⟩
    · intro d hd
      have hPmap : P.map (fun i => Y.getD i 0) = List.replicate m c := by
        rw [← hP2]
        exact List.map_eq_replicate_iff.2 (fun i hi => (hP3 i hi).2)
      rw [List.map_append, List.count_append, hPmap, List.count_replicate]
      by_cases hdc : d = c
      · subst hdc
        have : ((underRows R Y least m cs g').map (fun i => Y.getD i 0)).count d = 0 := by
          rw [List.count_eq_zero]
          intro hmem
          obtain ⟨i, hi, hi'⟩ := List.mem_map.1 hmem
          exact hc (hi' ▸ (h2 i hi).2)
        rw [this]
        simp
      · rw [h3 d ((List.mem_cons.1 hd).resolve_left hdc)]
        have : (c == d) = false := beq_eq_false_iff_ne.2 (fun e => hdc e.symm)
        rw [this]
        simp

theorem smallest_le {Y : List K} {c : K} (hc : c ∈ Y) : smallest Y ≤ Y.count c := by
  unfold smallest
  have : Y.count c ∈ (npUnique Y).map (fun c => Y.count c) :=
    List.mem_map_of_mem ((List.perm_insertionSort _ _).mem_iff.2 (List.mem_dedup.2 hc))
  revert this
  generalize (npUnique Y).map (fun c => Y.count c) = l
  intro h
  induction l with
  | nil => cases h
  | cons a l ih =>
    rw [List.foldr_cons]
    rcases List.mem_cons.1 h with h | h
    · rw [← h]; exact Nat.min_le_left _ _
    · exact (Nat.min_le_right _ _).trans (ih h)

theorem smallest_attained {Y : List K} (hY : Y ≠ []) : ∃ c ∈ Y, Y.count c = smallest Y := by
  have key : ∀ l : List Nat, l.foldr min Y.length = Y.length ∨ l.foldr min Y.length ∈ l := by
    intro l
    induction l with
    | nil => exact Or.inl rfl
    | cons a l ih =>
      rw [List.foldr_cons]
      rcases Nat.le_total a (l.foldr min Y.length) with h | h
      · rw [Nat.min_eq_left h]; exact Or.inr List.mem_cons_self
      · rw [Nat.min_eq_right h]
        exact ih.imp id (List.mem_cons_of_mem _)
  rcases key ((npUnique Y).map (fun c => Y.count c)) with h | h
  · obtain ⟨c, hc⟩ := List.exists_mem_of_ne_nil Y hY
    refine ⟨c, hc, le_antisymm ?_ (smallest_le hc)⟩
    unfold smallest
    rw [h]
    exact List.count_le_length
  · obtain ⟨c, hc, e⟩ := List.mem_map.1 h
    exact ⟨c, List.mem_dedup.1 ((List.perm_insertionSort _ _).mem_iff.1 hc), e⟩

/-- C153: balancing drops rows, and does nothing else: no row is taken twice, every row keeps its label, and every class that occurs has as many rows
as the rarest of them had. Which rows are taken depends on the labels and the seed only. -/
theorem C153_balanced (R : Rng K G) (Y : List K) (seed : Nat) (h2 : 2 ≤ (npUnique Y).length) :
    ∃ (I : List Nat) (m : Nat), I.Nodup ∧ (∀ i ∈ I, i < Y.length) ∧ (∀ c ∈ Y, m ≤ Y.count c) ∧ (∃ c ∈ Y, Y.count c = m) ∧
      ∀ X : List (List K), X.length = Y.length → ∃ (x : List (List K)) (y : List K),
        underSample R X Y seed = .ok (x, y) ∧ RowsOf X Y I x y ∧ ∀ c ∈ Y, y.count c = m := by
  have hmem : ∀ c, c ∈ npUnique Y ↔ c ∈ Y := fun c => (List.perm_insertionSort _ _).mem_iff.trans List.mem_dedup
  have hne : Y ≠ [] := by
    rintro rfl
    simp [npUnique] at h2
  have hleast : ∀ c, (npUnique Y).find? (fun c => decide (Y.count c = smallest Y)) = some c → Y.count c = smallest Y := by
    intro c hc
    simpa using List.find?_some hc
  obtain ⟨h3, h4, h5⟩ := underRows_spec R Y _ (smallest Y) hleast (npUnique Y) (R.seed seed)
    ((List.perm_insertionSort _ _).nodup_iff.2 (List.nodup_dedup _)) (fun c hc => smallest_le ((hmem c).1 hc))
  refine ⟨_, smallest Y, h3, fun i hi => (h4 i hi).1, fun c hc => smallest_le hc, smallest_attained hne, ?_⟩
  intro X hX
  refine ⟨_, _, ?_, rowsOf_map X Y _ (fun i hi => by rw [hX]; exact (h4 i hi).1) (fun i hi => (h4 i hi).1), fun c hc => h5 c ((hmem c).2 hc)⟩
  unfold underSample
  rw [if_neg (by omega)]

/-- C153: `split_data` on balanced data: again three parts, none twice, each row with its own label, all together as many of one class as of
the other. The rows are chosen by the labels and the seed. -/
theorem C153_three_balanced (R : Rng K G) (Y : List K) (r0 r1 r2 : K) (size : Option Nat) (seed : Nat) :
    ∃ I J L : List Nat, Apart Y.length I J L ∧ ∀ X : List (List K), X.length = Y.length →
      ∀ t : ThreeParts K, splitData R X Y r0 r1 r2 size seed true = .ok t →
        RowsOf X Y I t.xTrain t.yTrain ∧ RowsOf X Y J t.xVal t.yVal ∧ RowsOf X Y L t.xTest t.yTest ∧
        SplitSizes r0 r1 r2 (I ++ J ++ L).length I J L ∧ (∀ N, size = some N → (I ++ J ++ L).length = N) ∧
        (size = none → ∃ m, (∀ c ∈ Y, m ≤ Y.count c) ∧ (∃ c ∈ Y, Y.count c = m) ∧ ∀ c ∈ Y, (t.yTrain ++ t.yVal ++ t.yTest).count c = m) := by
  by_cases h2 : 2 ≤ (npUnique Y).length
  · obtain ⟨P, m, hP1, hP2, hm1, hm2, hP3⟩ := C153_balanced R Y seed h2
    obtain ⟨I, J, L, hA, h⟩ := C153_three R P.length r0 r1 r2 size seed
    have hbI : ∀ i ∈ I, i < P.length := fun i hi => hA.2 i (List.mem_append_left _ (List.mem_append_left _ hi))
    have hbJ : ∀ i ∈ J, i < P.length := fun i hi => hA.2 i (List.mem_append_left _ (List.mem_append_right _ hi))
    have hbL : ∀ i ∈ L, i < P.length := fun i hi => hA.2 i (List.mem_append_right _ hi)
    refine ⟨through P I, through P J, through P L, ⟨?_, ?_⟩, ?_⟩
    · rw [← through_append, ← through_append]
      exact through_nodup hP1 hA.1 hA.2
    · rw [← through_append, ← through_append]
      exact fun i hi => hP2 i (through_mem hA.2 hi)
    · intro X hX t ht
      obtain ⟨x, y, hu, hr, hc⟩ := hP3 X hX
      have ht' : splitData R x y r0 r1 r2 size seed false = .ok t := by
        rw [← ht]
        unfold splitData
        dsimp only
        rw [if_neg Bool.false_ne_true, if_pos rfl, hu]
      obtain ⟨e1, e2⟩ := rowsOf_length hr
      obtain ⟨g1, g2, g3, g4, g5, g6, g7⟩ := h x y e1 e2 t ht'
      have hlen : (through P I ++ through P J ++ through P L).length = size.getD P.length := by
        simp only [List.length_append, through_length]
        exact g4
      refine ⟨rowsOf_through hr g1 hbI, rowsOf_through hr g2 hbJ, rowsOf_through hr g3 hbL, ⟨?_, ?_, ?_, ?_⟩, ?_, ?_⟩
      · simp [Nat.add_assoc]
      · intro e
        have := congrArg List.length e
        rw [through_length] at this
        exact g5 (List.length_eq_zero_iff.1 (by simpa using this))
      · rw [hlen, through_length, g6]
      · rw [hlen, through_length, through_length, g7]
      · intro N hN
        rw [hlen, hN]
        rfl
      · intro hN
        subst hN
        refine ⟨m, hm1, hm2, fun c hcY => ?_⟩
        rw [← hc c hcY]
        have hp : (I ++ J ++ L).Perm (List.range P.length) := by
          refine (List.subperm_of_subset hA.1 (fun i hi => List.mem_range.2 (hA.2 i hi))).perm_of_length_le ?_
          rw [List.length_range]
          simp only [List.length_append, g4]
          exact le_of_eq rfl
        have hall : (t.yTrain ++ t.yVal ++ t.yTest).map some = (I ++ J ++ L).map (fun i => y[i]?) := by
          simp only [List.map_append, g1.2, g2.2, g3.2]
        have hys : y.map some = (List.range P.length).map (fun i => y[i]?) := by
          rw [← e2]
          refine List.ext_getElem (by simp) (fun j h1 h2 => ?_)
          simp
        have hperm : ((t.yTrain ++ t.yVal ++ t.yTest).map some).Perm (y.map some) := by
          rw [hall, hys]
          exact hp.map _
        have := hperm.count_eq (some c)
        rwa [List.count_map_of_injective _ _ (Option.some_injective K), List.count_map_of_injective _ _ (Option.some_injective K)] at this
  · refine ⟨[], [], [], ⟨by simp, by simp⟩, ?_⟩
    intro X hX t ht
    exfalso
    unfold splitData at ht
    rw [if_pos rfl] at ht
    unfold underSample at ht
    rw [if_pos (Or.inr (by omega))] at ht
    cases ht

/-- C153: the housing data: every row is in exactly one of the two parts, with its own target. -/
theorem C153_housing (R : Rng K G) (n cut : Nat) :
    ∃ I J : List Nat, (I ++ J).Perm (List.range n) ∧ I.length = min cut n ∧
      ∀ (X : List (List K)) (Y : List K), X.length = n → Y.length = n →
        RowsOf X Y I (housingSplit R X Y cut).xTrain (housingSplit R X Y cut).yTrain ∧
        RowsOf X Y J (housingSplit R X Y cut).xTest (housingSplit R X Y cut).yTest := by
  have hnd := R.choice_nodup (R.seed 0) n n le_rfl
  have hlen := R.choice_length (R.seed 0) n n le_rfl
  have hlt := R.choice_lt (R.seed 0) n n le_rfl
  have hperm : (R.choice (R.seed 0) n n).1.Perm (List.range n) := by
    refine (List.subperm_of_subset hnd (fun i hi => List.mem_range.2 (hlt i hi))).perm_of_length_le ?_
    rw [List.length_range, hlen]
  refine ⟨(R.choice (R.seed 0) n n).1.take cut, (R.choice (R.seed 0) n n).1.drop cut, ?_, ?_, ?_⟩
  · rw [List.take_append_drop]; exact hperm
  · rw [List.length_take, hlen]
  · intro X Y hX hY
    have e : housingSplit R X Y cut = ⟨((R.choice (R.seed 0) n n).1.take cut).map (fun i => X.getD i []),
        ((R.choice (R.seed 0) n n).1.take cut).map (fun i => Y.getD i 0), ((R.choice (R.seed 0) n n).1.drop cut).map (fun i => X.getD i []),
        ((R.choice (R.seed 0) n n).1.drop cut).map (fun i => Y.getD i 0)⟩ := by
      unfold housingSplit
      simp only [hX, List.map_take, List.map_drop]
    rw [e]
    exact ⟨rowsOf_map X Y _ (fun i hi => by rw [hX]; exact hlt i (List.mem_of_mem_take hi))
        (fun i hi => by rw [hY]; exact hlt i (List.mem_of_mem_take hi)),
      rowsOf_map X Y _ (fun i hi => by rw [hX]; exact hlt i (List.mem_of_mem_drop hi))
        (fun i hi => by rw [hY]; exact hlt i (List.mem_of_mem_drop hi))⟩

/-- C153: the regression data of the comparisons: the first four fifths of the rows are for training and the others for testing. -/
theorem C153_eighty (X : List (List K)) (Y : List K) (h : X.length = Y.length) :
    ∃ n : Nat, n = (X.length * 8) / 10 ∧
      RowsOf X Y (List.range n) (eightyTwenty X Y).xTrain (eightyTwenty X Y).yTrain ∧
      RowsOf X Y (List.range' n (X.length - n)) (eightyTwenty X Y).xTest (eightyTwenty X Y).yTest := by
  have hc : 8 * X.length / 10 ≤ X.length := by omega
  refine ⟨_, rfl, ?_⟩
  rw [Nat.mul_comm X.length 8]
  unfold eightyTwenty
  dsimp only
  generalize 8 * X.length / 10 = n at hc
  refine ⟨⟨?_, ?_⟩, ⟨?_, ?_⟩⟩
  all_goals
    refine List.ext_getElem (by simp <;> omega) (fun j h1 h2 => ?_)
    simp at h1 h2 ⊢

/-! Ten rows, three of them of class 1. -/

def exHoldX : List (List ℚ) := (List.range 10).map (fun i => [(i : ℚ)])
def exHoldY : List ℚ := (List.range 10).map (fun i => if i < 3 then 1 else 0)

/-- The hypotheses of `C153_heart_ratio`, `C153_split` and `C153_balanced` hold, and this is what is returned. -/
example : exHoldX.length = exHoldY.length ∧ 3 ≤ (none : Option Nat).getD exHoldY.length ∧ 2 ≤ (npUnique exHoldY).length ∧
    ⌈(1 / 5 : ℚ) * (10 : Nat)⌉ < ((10 : Nat) : ℤ) ∧
    splitData rngQ exHoldX exHoldY (3 / 5) (1 / 5) (1 / 5) none 1 false =
      .ok ⟨[[6], [7], [8], [9], [0], [3]], [[4], [5]], [[1], [2]], [0, 0, 0, 0, 1, 0], [0, 0], [1, 1]⟩ ∧
    splitData rngQ exHoldX exHoldY (3 / 5) (1 / 5) (1 / 5) none 1 true =
      .ok ⟨[[2], [4], [0]], [[1]], [[5], [6]], [1, 0, 1], [1], [0, 0]⟩ ∧
    splitData rngQ exHoldX exHoldY (3 / 5) (1 / 5) (1 / 5) (some 5) 1 false = .ok ⟨[[5], [1], [3]], [[4]], [[2]], [0, 1, 0], [0], [1]⟩ ∧
    splitData rngQ exHoldX exHoldY (3 / 5) (1 / 5) (1 / 5) (some 2) 1 false = .error .valueError := by
  decide +kernel

end FF
