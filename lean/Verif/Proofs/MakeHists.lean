import Verif.Proofs.Sample

/-!
# What `make_histograms` produces
-/

namespace FF

open Spec

set_option linter.unusedSectionVars false

variable {K : Type} [Field K] [LinearOrder K] [IsStrictOrderedRing K] [FloorRing K] [NpFun K] {G : Type}

theorem npMin_le_npMax {l : List K} {lo hi : K} (h1 : npMin l = some lo) (h2 : npMax l = some hi) : lo ≤ hi := by
  cases l with
  | nil => cases h1
  | cons x xs =>
    simp only [npMin, npMax, Option.some.injEq] at h1 h2
    have a : ∀ (ys : List K) (a : K), ys.foldl min a ≤ a := by
      intro ys
      induction ys with
      | nil => intro a; exact le_refl _
      | cons y ys ih => intro a; exact le_trans (ih _) (min_le_left _ _)
    have b : ∀ (ys : List K) (a : K), a ≤ ys.foldl max a := by
      intro ys
      induction ys with
      | nil => intro a; exact le_refl _
      | cons y ys ih => intro a; exact le_trans (le_max_left _ _) (ih _)
    rw [← h1, ← h2]
    exact le_trans (a xs x) (b xs x)

theorem npMin_le {l : List K} {lo x : K} (h : npMin l = some lo) (hx : x ∈ l) : lo ≤ x := by
  cases l with
  | nil => cases h
  | cons y ys =>
    simp only [npMin, Option.some.injEq] at h
    have a : ∀ (ys : List K) (a : K), ys.foldl min a ≤ a ∧ ∀ z ∈ ys, ys.foldl min a ≤ z := by
      intro ys
      induction ys with
      | nil => intro a; exact ⟨le_refl _, by simp⟩
      | cons y ys ih =>
        intro a
        obtain ⟨i1, i2⟩ := ih (min a y)
        refine ⟨le_trans i1 (min_le_left _ _), fun z hz => ?_⟩
        rw [List.mem_cons] at hz
        rcases hz with rfl | hz
        · exact le_trans i1 (min_le_right _ _)
        · exact i2 z hz
    rw [← h]
    rw [List.mem_cons] at hx
    rcases hx with rfl | hx
    · exact (a ys x).1
    · exact (a ys y).2 x hx

theorem le_npMax {l : List K} {hi x : K} (h : npMax l = some hi) (hx : x ∈ l) : x ≤ hi := by
  cases l with
  | nil => cases h
  | cons y ys =>
    simp only [npMax, Option.some.injEq] at h
    have a : ∀ (ys : List K) (a : K), a ≤ ys.foldl max a ∧ ∀ z ∈ ys, z ≤ ys.foldl max a := by
      intro ys
      induction ys with
      | nil => intro a; exact ⟨le_refl _, by simp⟩
      | cons y ys ih =>
        intro a
        obtain ⟨i1, i2⟩ := ih (max a y)
        refine ⟨le_trans (le_max_left _ _) i1, fun z hz => ?_⟩
        rw [List.mem_cons] at hz
        rcases hz with rfl | hz
        · exact le_trans (le_max_right _ _) i1
        · exact i2 z hz
    rw [← h]
    rw [List.mem_cons] at hx
    rcases hx with rfl | hx
    · exact (a ys x).1
    · exact (a ys y).2 x hx

/-- The bin type `make_histograms` uses for a feature. -/
def binTypeFor (d : DiscDict K) (binType : Option BinType) (N B f : Nat) : BinType :=
  match binType with
  | some t => t
  | none => chooseBinType ((discLookup d f).map (fun u => u.vals.length)) N B

/-- How histogram `f` was constructed. -/
def MadeBy (R : Rng K G) (isCls : Bool) (data : List (List K)) (classes : List K) (minmax : Option (List K × List K))
    (d : DiscDict K) (binType : Option BinType) (B f : Nat) (h : Hist K) : Prop :=
  ∃ fData cur lo hi nb g g', colE data f = .ok fData ∧
    (binType = some .linear → cur = B) ∧ (binType = some .random → cur = B) ∧
    binParams data minmax d (discLookup d f) (binTypeFor d binType data.length B f) f fData cur = .ok (lo, hi, nb) ∧
    Hist.init R g isCls f (discLookup d f) fData classes nb lo hi (binTypeFor d binType data.length B f) = .ok (h, g')

/-- The condition on the leaked local `num_bins`. -/
def CurOK (binType : Option BinType) (N B cur : Nat) : Prop :=
  (binType = some .linear → cur = B) ∧ (binType = some .random → cur = B) ∧ (binType = none → cur ≠ 1 ∨ N ≤ B)

/-- One histogram of a node before any sampling. -/
structure FreshHist (isCls : Bool) (classes : List K) (f : Nat) (h : Hist K) : Prop where
  feat : h.featureIdx = f
  classes_eq : h.classes = classes
  numBins : h.numBins = (h.edges.getD []).length
  rep : ∀ e, h.edges = some e → Rep isCls h e []

theorem makeHistLoop_append (R : Rng K G) (isCls : Bool) (data : List (List K)) (classes : List K)
    (minmax : Option (List K × List K)) (d : DiscDict K) (binType : Option BinType) (B : Nat) (fs gs : List Nat)
    (st : Hists K G) :
    makeHistLoop R isCls data classes minmax d binType B (fs ++ gs) st =
      match makeHistLoop R isCls data classes minmax d binType B fs st with
      | .error e => .error e
      | .ok st' => makeHistLoop R isCls data classes minmax d binType B gs st' := by
  induction fs generalizing st with
  | nil => rfl
  | cons f fs ih =>
    simp only [List.cons_append, makeHistLoop]
    split
    · rfl
    · exact ih _

theorem chooseBinType_linear {D : Option Nat} {N B : Nat} (h : chooseBinType D N B = .linear) : B < N := by
  unfold chooseBinType at h
  split at h <;> split_ifs at h <;> omega

theorem makeHistStep_eq (R : Rng K G) (isCls : Bool) (data : List (List K)) (classes : List K)
    (minmax : Option (List K × List K)) (d : DiscDict K) (binType : Option BinType) (B : Nat) (f : Nat) (st : Hists K G) :
    makeHistStep R isCls data classes minmax d binType B f st =
  match colE data f with
  | .error e => .error e
  | .ok fData =>
    match binParams data minmax d (discLookup d f) (binTypeFor d binType data.length B f) f fData st.numBins with
    | .error e => .error e
    | .ok (lo, hi, nb) =>
      match Hist.init R st.g isCls f (discLookup d f) fData classes nb lo hi (binTypeFor d binType data.length B f) with
      | .error e => .error e
      | .ok (h, g') =>
        .ok { hists := st.hists ++ [h]
              notCons := st.notCons ++ (List.range' h.numBins (B - h.numBins)).map (fun b => (f, b))
              cons := st.cons ++ (List.range h.numBins).map (fun b => (f, b))
              numBins := nb
              g := g' } := rfl

theorem makeHistStep_good {R : Rng K G} {isCls : Bool} {data : List (List K)} {classes : List K}
    {minmax : Option (List K × List K)} {d : DiscDict K} {binType : Option BinType} {B f : Nat} {st st' : Hists K G}
    (hb : BinningOK minmax d binType B) (hc : classes.Nodup) (hcur : CurOK binType data.length B st.numBins)
    (h : makeHistStep R isCls data classes minmax d binType B f st = .ok st') :
    ∃ h : Hist K, st'.hists = st.hists ++ [h] ∧ FreshHist isCls classes f h ∧
      MadeBy R isCls data classes minmax d binType B f h ∧
      st'.notCons = st.notCons ++ (List.range' h.numBins (B - h.numBins)).map (fun b => (f, b)) ∧
      st'.cons = st.cons ++ (List.range h.numBins).map (fun b => (f, b)) ∧
      CurOK binType data.length B st'.numBins := by
  rw [makeHistStep_eq] at h
  split at h
  · cases h
  · next fData hcol =>
    split at h
    · cases h
    · next lo hi nb hpar =>
      split at h
      · cases h
      · next hh g' hinit =>
        cases h
        obtain ⟨i1, i2, i3, i4⟩ := init_fields hinit
        have hdisc : binTypeFor d binType data.length B f = .discrete →
            ∃ u, discLookup d f = some u ∧ u.isSet = false ∧ nb = u.vals.length := by
          intro ht
          rw [ht] at hpar hinit
          unfold binParams at hpar
          simp only [] at hpar
          split at hpar
          · cases hpar
          · cases hpar
          · next u hd =>
            cases hpar
            refine ⟨u, hd, ?_, rfl⟩
            unfold Hist.init makeEdges discreteBin at hinit
            rw [hd] at hinit
            simp only [] at hinit
            by_contra hs
            simp only [Bool.not_eq_false] at hs
            rw [hs] at hinit
            split_ifs at hinit
            next hx => exact hx rfl
        have hnb1 : binTypeFor d binType data.length B f = .linear → nb ≠ 1 ∧ nb = st.numBins := by
          intro ht
          rw [ht] at hpar
          have hnb : nb = st.numBins := by
            unfold binParams at hpar
            simp only [] at hpar
            split at hpar <;> split at hpar <;> simp_all
          refine ⟨?_, hnb⟩
          rw [hnb]
          cases hbt : binType with
          | some t =>
            rw [hbt] at ht
            simp only [binTypeFor] at ht
            rw [hcur.1 (by rw [hbt, ht])]
            exact hb.linear_bins (by rw [hbt, ht])
          | none =>
            rw [hbt] at ht
            have := chooseBinType_linear ht
            rcases hcur.2.2 hbt with h1 | h1
            · exact h1
            · omega
        have hargs : BinArgs (binTypeFor d binType data.length B f) (discLookup d f) nb lo hi := by
          constructor
          · intro ht
            refine ⟨?_, (hnb1 ht).1⟩
            rw [ht] at hpar
            unfold binParams at hpar
            simp only [] at hpar
            split at hpar
            · split at hpar
              · next h1 h2 =>
                cases hpar
                exact npMin_le_npMax h1 h2
              · cases hpar
            · split at hpar
              · next h1 h2 =>
                cases hpar
                exact hb.minmax_le _ _ rfl f _ _ h1 h2
              · cases hpar
          · intro ht u hu
            obtain ⟨u', hu', hset, _⟩ := hdisc ht
            obtain rfl : u' = u := Option.some.inj (hu'.symm.trans hu)
            exact hb.sorted f u' hu' hset
        have hfresh : FreshHist isCls classes f hh := by
          have hrep : ∀ e, hh.edges = some e → Rep isCls hh e [] := by
            intro e he
            unfold Rep
            cases isCls with
            | true => exact clsRep_of_init hargs hc hinit he
            | false => exact regRep_of_init hargs hinit he
          refine ⟨i1, i2, ?_, hrep⟩
          cases he : hh.edges with
          | some e => exact (hrep e he).numBins.symm
          | none =>
            unfold Hist.init at hinit
            split at hinit
            · cases hinit
            · next edges nb' g'' hme =>
              cases hinit
              simp only [Hist.mk'] at he
              subst he
              unfold makeEdges at hme
              split at hme
              · split_ifs at hme <;> cases hme
                rfl
              · split at hme
                · cases hme
                · split at hme <;> cases hme
              · cases hme
              · cases hme
        refine ⟨hh, rfl, hfresh, ⟨fData, st.numBins, lo, hi, nb, _, _, hcol, hcur.1, hcur.2.1, hpar, hinit⟩, rfl, rfl, ?_⟩
        refine ⟨?_, ?_, ?_⟩
        · intro ht
          show nb = B
          rw [(hnb1 (by rw [ht]; rfl)).2, hcur.1 ht]
        · intro ht
          show nb = B
          rw [← hcur.2.1 ht]
          rw [ht] at hpar
          unfold binTypeFor binParams at hpar
          simp only [] at hpar
          split at hpar <;> simp_all
        · intro ht
          show nb ≠ 1 ∨ _
          cases hb2 : binTypeFor d binType data.length B f with
          | linear => left; exact (hnb1 hb2).1
          | discrete =>
            obtain ⟨u, hu, hset, rfl⟩ := hdisc hb2
            left
            exact (hb.auto_bins ht).2 f u hu hset
          | identity =>
            right
            rw [ht] at hb2
            unfold binTypeFor chooseBinType at hb2
            simp only [] at hb2
            split at hb2 <;> split_ifs at hb2 <;> assumption
          | random =>
            rw [ht] at hb2
            unfold binTypeFor chooseBinType at hb2
            simp only [] at hb2
            split at hb2 <;> split_ifs at hb2

/-- Everything `make_histograms` guarantees. -/
structure HistsGood (R : Rng K G) (isCls : Bool) (data : List (List K)) (classes : List K)
    (minmax : Option (List K × List K)) (d : DiscDict K) (binType : Option BinType) (F B : Nat) (hs : Hists K G) : Prop where
  len : hs.hists.length = F
  fresh : ∀ (f : Nat) (h : Hist K), hs.hists[f]? = some h → FreshHist isCls classes f h
  made : ∀ (f : Nat) (h : Hist K), hs.hists[f]? = some h → MadeBy R isCls data classes minmax d binType B f h
  cons : hs.cons = (List.range F).flatMap (fun f => (List.range (edgesOf hs.hists f).length).map (fun b => (f, b)))
  notCons : hs.notCons = (List.range F).flatMap (fun f =>
    (List.range' (edgesOf hs.hists f).length (B - (edgesOf hs.hists f).length)).map (fun b => (f, b)))

theorem edgesOf_append_left {hs hs' : List (Hist K)} {f : Nat} (hf : f < hs.length) : edgesOf (hs ++ hs') f = edgesOf hs f := by
  unfold edgesOf
  rw [List.getElem?_append_left hf]

theorem makeHistLoop_good {R : Rng K G} {isCls : Bool} {data : List (List K)} {classes : List K}
    {minmax : Option (List K × List K)} {d : DiscDict K} {binType : Option BinType} {B : Nat} {g : G}
    (hb : BinningOK minmax d binType B) (hc : classes.Nodup) :
    ∀ (n : Nat) (st : Hists K G),
    makeHistLoop R isCls data classes minmax d binType B (List.range n)
      { hists := [], notCons := [], cons := [], numBins := B, g := g } = .ok st →
    HistsGood R isCls data classes minmax d binType n B st ∧ CurOK binType data.length B st.numBins := by
  intro n
  induction n with
  | zero =>
    intro st h
    cases h
    refine ⟨⟨rfl, ?_, ?_, rfl, rfl⟩, fun _ => rfl, fun _ => rfl, fun hn => Or.inl (hb.auto_bins hn).1⟩
    · intro f h hf; simp at hf
    · intro f h hf; simp at hf
  | succ n ih =>
    intro st h
    rw [List.range_succ, makeHistLoop_append] at h
    split at h
    · cases h
    · next st' hst' =>
      obtain ⟨hg, hcur⟩ := ih st' hst'
      simp only [makeHistLoop] at h
      split at h
      · cases h
      · next st'' hstep =>
        cases h
        obtain ⟨hh, e1, e2, e3, e4, e5, e6⟩ := makeHistStep_good hb hc hcur hstep
        have hlen := hg.len
        have hget : ∀ (f : Nat) (h : Hist K), st.hists[f]? = some h → (f < n ∧ st'.hists[f]? = some h) ∨ (f = n ∧ h = hh) := by
          intro f h hf
          rw [e1] at hf
          rcases lt_or_ge f n with hlt | hge
          · left
            rw [List.getElem?_append_left (by omega)] at hf
            exact ⟨hlt, hf⟩
          · right
            rw [List.getElem?_append_right (by omega), hlen] at hf
            rcases Nat.eq_zero_or_pos (f - n) with h0 | h0
            · rw [h0] at hf
              simp at hf
              exact ⟨by omega, hf.symm⟩
            · rw [List.getElem?_eq_none (by simp; omega)] at hf
              cases hf
        have hE : ∀ f ∈ List.range n, edgesOf st.hists f = edgesOf st'.hists f := by
          intro f hf
          rw [e1, edgesOf_append_left (by rw [hlen]; exact List.mem_range.1 hf)]
        have hEn : (edgesOf st.hists n).length = hh.numBins := by
          rw [e1]
          unfold edgesOf
          rw [List.getElem?_append_right (by omega), hlen, e2.numBins]
          simp
        refine ⟨⟨by rw [e1, List.length_append, hlen]; rfl, ?_, ?_, ?_, ?_⟩, e6⟩
        · intro f h hf
          rcases hget f h hf with ⟨_, h1⟩ | ⟨rfl, rfl⟩
          · exact hg.fresh f h h1
          · exact e2
        · intro f h hf
          rcases hget f h hf with ⟨_, h1⟩ | ⟨rfl, rfl⟩
          · exact hg.made f h h1
          · exact e3
        · rw [e5, hg.cons, List.range_succ, List.flatMap_append]
          congr 1
          · apply List.flatMap_congr
            intro f hf
            rw [hE f hf]
          · simp [hEn]
        · rw [e4, hg.notCons, List.range_succ, List.flatMap_append]
          congr 1
          · apply List.flatMap_congr
            intro f hf
            rw [hE f hf]
          · simp [hEn]

/-- The classes a node's histograms use. -/
def nodeClasses (isCls : Bool) (labels : List K) : List K := if isCls then npUnique labels else []

theorem nodeClasses_nodup (isCls : Bool) (labels : List K) : (nodeClasses isCls labels).Nodup := by
  unfold nodeClasses
  split
  · exact npUnique_nodup _
  · exact List.nodup_nil

theorem makeHistograms_good {R : Rng K G} {g : G} {isCls : Bool} {row : List K} {rest : List (List K)} {labels : List K}
    {minmax : Option (List K × List K)} {d : DiscDict K} {binType : Option BinType} {B : Nat} {hs : Hists K G}
    (hb : BinningOK minmax d binType B)
    (h : makeHistograms R g isCls (row :: rest) labels minmax d binType B = .ok hs) :
    HistsGood R isCls (row :: rest) (nodeClasses isCls labels) minmax d binType row.length B hs :=
  (makeHistLoop_good hb (nodeClasses_nodup _ _) _ _ h).1

set_option linter.unusedVariables false in
theorem HistsGood.edges_eq {R : Rng K G} {isCls : Bool} {data : List (List K)} {classes : List K}
    {minmax : Option (List K × List K)} {d : DiscDict K} {binType : Option BinType} {F B : Nat} {hs : Hists K G}
    (hg : HistsGood R isCls data classes minmax d binType F B hs) {f : Nat} {h : Hist K} (hf : hs.hists[f]? = some h)
    (hE : edgesOf hs.hists f ≠ []) : h.edges = some (edgesOf hs.hists f) := by
  unfold edgesOf at *
  rw [hf] at *
  simp only [] at *
  cases he : h.edges with
  | none => rw [he] at hE; simp at hE
  | some e => rfl

/-- The fresh histograms contain no rows. -/
theorem HistsGood.rep {R : Rng K G} {isCls : Bool} {data : List (List K)} {classes : List K}
    {minmax : Option (List K × List K)} {d : DiscDict K} {binType : Option BinType} {F B : Nat} {hs : Hists K G}
    (hg : HistsGood R isCls data classes minmax d binType F B hs) (labels : List K) :
    HistsRep isCls classes data labels (edgesOf hs.hists) (fun _ => []) hs.hists :=
  ⟨fun f h hf => (hg.fresh f h hf).feat, fun f h hf => (hg.fresh f h hf).classes_eq,
    fun f h hf hE => (hg.fresh f h hf).rep _ (hg.edges_eq hf hE)⟩

/-- The candidates of a solver: all arms that refer to an existing edge. -/
def candArms (F B : Nat) (hs : Hists K G) : List Arm := if hs.notCons.length > 0 then hs.cons else allArms F B

theorem mem_flatMap_arms {F : Nat} {bs : Nat → List Nat} {a : Arm} :
    a ∈ (List.range F).flatMap (fun f => (bs f).map (fun b => ((f, b) : Arm))) ↔ a.1 < F ∧ a.2 ∈ bs a.1 := by
  simp only [List.mem_flatMap, List.mem_range, List.mem_map]
  constructor
  · rintro ⟨f, hf, b, hb, rfl⟩; exact ⟨hf, hb⟩
  · rintro ⟨hf, hb⟩; exact ⟨a.1, hf, a.2, hb, rfl⟩

section
variable {R : Rng K G} {isCls : Bool} {data : List (List K)} {classes : List K}
    {minmax : Option (List K × List K)} {d : DiscDict K} {binType : Option BinType} {F B : Nat} {hs : Hists K G}

theorem HistsGood.mem_notCons (hg : HistsGood R isCls data classes minmax d binType F B hs) {a : Arm} :
    a ∈ hs.notCons ↔ a.1 < F ∧ (edgesOf hs.hists a.1).length ≤ a.2 ∧ a.2 < B := by
  rw [hg.notCons, mem_flatMap_arms, List.mem_range']
  constructor
  · rintro ⟨h1, i, h2, h3⟩; exact ⟨h1, by omega, by omega⟩
  · rintro ⟨h1, h2, h3⟩; exact ⟨h1, a.2 - (edgesOf hs.hists a.1).length, by omega, by omega⟩

theorem HistsGood.mem_cons (hg : HistsGood R isCls data classes minmax d binType F B hs) {a : Arm} :
    a ∈ hs.cons ↔ a.1 < F ∧ a.2 < (edgesOf hs.hists a.1).length := by
  rw [hg.cons, mem_flatMap_arms, List.mem_range]

theorem HistsGood.cons_sorted (hg : HistsGood R isCls data classes minmax d binType F B hs) : hs.cons.Pairwise ArmLt := by
  rw [hg.cons]
  exact pairwise_flatMap_arms _ _ List.pairwise_lt_range (fun _ _ => List.pairwise_lt_range)

theorem HistsGood.cands_sorted (hg : HistsGood R isCls data classes minmax d binType F B hs) :
    (candArms F B hs).Pairwise ArmLt := by
  unfold candArms
  split
  · exact hg.cons_sorted
  · exact allArms_sorted F B

theorem HistsGood.cands_valid (hg : HistsGood R isCls data classes minmax d binType F B hs) :
    ArmsValid (edgesOf hs.hists) F (candArms F B hs) := by
  intro a ha
  unfold candArms at ha
  split at ha
  · exact hg.mem_cons.1 ha
  · next hn =>
    rw [mem_allArms] at ha
    refine ⟨ha.1, ?_⟩
    by_contra hlt
    have : a ∈ hs.notCons := hg.mem_notCons.2 ⟨ha.1, by omega, ha.2⟩
    exact hn (List.length_pos_of_mem this)

theorem HistsGood.mem_cands_or (hg : HistsGood R isCls data classes minmax d binType F B hs) {a : Arm} (ha : a ∈ allArms F B) :
    (a ∈ candArms F B hs ∧ a ∉ hs.notCons) ∨ (a ∈ hs.notCons ∧ a ∉ candArms F B hs) := by
  rw [mem_allArms] at ha
  rcases lt_or_ge a.2 (edgesOf hs.hists a.1).length with h | h
  · left
    refine ⟨?_, fun hc => ?_⟩
    · unfold candArms
      split
      · exact hg.mem_cons.2 ⟨ha.1, h⟩
      · exact mem_allArms.2 ha
    · have := (hg.mem_notCons.1 hc).2.1
      omega
  · right
    refine ⟨hg.mem_notCons.2 ⟨ha.1, h, ha.2⟩, fun hc => ?_⟩
    have := (hg.cands_valid a hc).2
    omega

end

/-! ### The edges, by bin type -/

section
variable {R : Rng K G} {isCls : Bool} {data : List (List K)} {classes : List K}
    {minmax : Option (List K × List K)} {d : DiscDict K} {B f : Nat} {h : Hist K}

theorem MadeBy.identity (hm : MadeBy R isCls data classes minmax d (some .identity) B f h) :
    h.edges = some (npUnique (data.map (fun row => row.getD f 0))) ∧ ∀ row ∈ data, f < row.length := by
  obtain ⟨fData, cur, lo, hi, nb, g, g', hcol, _, _, hpar, hinit⟩ := hm
  obtain ⟨rfl, hr⟩ := colE_ok hcol
  unfold binTypeFor Hist.init makeEdges at hinit
  simp only [Except.ok.injEq, Prod.mk.injEq] at hinit
  rw [← hinit.1]
  exact ⟨rfl, hr⟩

theorem MadeBy.linear (hm : MadeBy R isCls data classes minmax d (some .linear) B f h) :
    (∀ row ∈ data, f < row.length) ∧
    ∃ lo hi, (minmax = none → npMin (data.map (fun row => row.getD f 0)) = some lo ∧
        npMax (data.map (fun row => row.getD f 0)) = some hi) ∧
      (∀ mins maxs, minmax = some (mins, maxs) → mins[f]? = some lo ∧ maxs[f]? = some hi) ∧
      h.edges = if lo = hi then none else some (linspace lo hi B) := by
  obtain ⟨fData, cur, lo, hi, nb, g, g', hcol, hcur, _, hpar, hinit⟩ := hm
  obtain ⟨rfl, hr⟩ := colE_ok hcol
  obtain rfl := hcur rfl
  unfold binTypeFor at hinit hpar
  unfold binParams at hpar
  simp only [] at hpar
  have hp : nb = cur ∧ (minmax = none → npMin (data.map (fun row => row.getD f 0)) = some lo ∧
        npMax (data.map (fun row => row.getD f 0)) = some hi) ∧
      (∀ mins maxs, minmax = some (mins, maxs) → mins[f]? = some lo ∧ maxs[f]? = some hi) := by
    split at hpar
    · split at hpar
      · next h1 h2 =>
        cases hpar
        exact ⟨rfl, fun _ => ⟨h1, h2⟩, fun _ _ h => by cases h⟩
      · cases hpar
    · split at hpar
      · next h1 h2 =>
        cases hpar
        refine ⟨rfl, fun h => (by cases h), fun _ _ h => ?_⟩
        cases h
        exact ⟨h1, h2⟩
      · cases hpar
  obtain ⟨rfl, hp1, hp2⟩ := hp
  refine ⟨hr, lo, hi, hp1, hp2, ?_⟩
  unfold Hist.init makeEdges at hinit
  simp only [] at hinit
  split_ifs at hinit with hlh
  · simp only [Except.ok.injEq, Prod.mk.injEq] at hinit
    rw [← hinit.1, if_pos hlh]; rfl
  · simp only [Except.ok.injEq, Prod.mk.injEq] at hinit
    rw [← hinit.1, if_neg hlh]; rfl

theorem MadeBy.random (hm : MadeBy R isCls data classes minmax d (some .random) B f h) :
    (∀ row ∈ data, f < row.length) ∧
    ∃ lo hi es, npMin (data.map (fun row => row.getD f 0)) = some lo ∧ npMax (data.map (fun row => row.getD f 0)) = some hi ∧
      h.edges = some es ∧ es.length = B ∧ es.Pairwise (· ≤ ·) ∧ ∀ e ∈ es, lo ≤ e ∧ e ≤ hi := by
  obtain ⟨fData, cur, lo, hi, nb, g, g', hcol, _, hcur, hpar, hinit⟩ := hm
  obtain ⟨rfl, hr⟩ := colE_ok hcol
  obtain rfl := hcur rfl
  unfold binTypeFor at hinit hpar
  unfold binParams at hpar
  simp only [] at hpar
  split at hpar
  · next h1 h2 =>
    cases hpar
    unfold Hist.init makeEdges at hinit
    simp only [Except.ok.injEq, Prod.mk.injEq] at hinit
    refine ⟨hr, lo, hi, (R.uniform g lo hi cur).1.insertionSort (· ≤ ·), h1, h2, ?_, ?_, List.pairwise_insertionSort _ _, ?_⟩
    · rw [← hinit.1]; rfl
    · rw [List.length_insertionSort, R.uniform_length]
    · intro e he
      rw [(List.perm_insertionSort _ _).mem_iff] at he
      exact R.uniform_mem _ _ _ _ (npMin_le_npMax h1 h2) e he
  · cases hpar

end

theorem npUnique_length_le (l : List K) : (npUnique l).length ≤ l.length := by
  rw [(npUnique_perm l).length_eq]
  exact (List.dedup_sublist l).length_le

/-- Without DISCRETE bins no histogram has more bins than asked for. -/
theorem HistsGood.edges_le {R : Rng K G} {isCls : Bool} {data : List (List K)} {classes : List K}
    {minmax : Option (List K × List K)} {d : DiscDict K} {t : BinType} {F B : Nat} {hs : Hists K G}
    (hg : HistsGood R isCls data classes minmax d (some t) F B hs) (ht : t ≠ .discrete)
    (hB : t = .identity → B = data.length) (f : Nat) : (edgesOf hs.hists f).length ≤ B := by
  unfold edgesOf
  split
  · simp
  · next h hf =>
    have hm := hg.made f h hf
    cases t with
    | discrete => exact absurd rfl ht
    | identity =>
      rw [hm.identity.1, hB rfl]
      simpa using npUnique_length_le (data.map (fun row => row.getD f 0))
    | linear =>
      obtain ⟨_, lo, hi, _, _, he⟩ := hm.linear
      rw [he]
      split
      · simp
      · simp [length_linspace]
    | random =>
      obtain ⟨_, lo, hi, es, _, _, he, hl, _⟩ := hm.random
      rw [he]
      simp [hl]

/-! ### Success -/

theorem npMin_isSome {l : List K} (h : l ≠ []) : ∃ v, npMin l = some v := by
  cases l with
  | nil => exact absurd rfl h
  | cons x xs => exact ⟨_, rfl⟩

theorem npMax_isSome {l : List K} (h : l ≠ []) : ∃ v, npMax l = some v := by
  cases l with
  | nil => exact absurd rfl h
  | cons x xs => exact ⟨_, rfl⟩

theorem makeHistStep_total {R : Rng K G} {isCls : Bool} {data : List (List K)} {classes : List K}
    {minmax : Option (List K × List K)} {d : DiscDict K} {t : BinType} {B f : Nat} (st : Hists K G)
    (ht : t ≠ .discrete) (hne : data ≠ []) (hrow : ∀ row ∈ data, f < row.length)
    (hmm : ∀ mins maxs, minmax = some (mins, maxs) → f < mins.length ∧ f < maxs.length) :
    ∃ st', makeHistStep R isCls data classes minmax d (some t) B f st = .ok st' := by
  have hcne : data.map (fun row => row.getD f 0) ≠ [] := by simpa using hne
  obtain ⟨lo, hlo⟩ := npMin_isSome hcne
  obtain ⟨hi, hhi⟩ := npMax_isSome hcne
  rw [makeHistStep_eq, colE_of hrow]
  simp only [binTypeFor]
  cases t with
  | discrete => exact absurd rfl ht
  | identity => simp [binParams, Hist.init, makeEdges]
  | random =>
    simp only [binParams, Hist.init, makeEdges, hlo, hhi]
    exact ⟨_, rfl⟩
  | linear =>
    cases minmax with
    | none =>
      simp only [binParams, hlo, hhi, Hist.init, makeEdges]
      split_ifs <;> exact ⟨_, rfl⟩
    | some p =>
      obtain ⟨h1, h2⟩ := hmm p.1 p.2 rfl
      simp only [binParams, List.getElem?_eq_getElem h1, List.getElem?_eq_getElem h2, Hist.init, makeEdges]
      split_ifs <;> exact ⟨_, rfl⟩

theorem makeHistLoop_total {R : Rng K G} {isCls : Bool} {data : List (List K)} {classes : List K}
    {minmax : Option (List K × List K)} {d : DiscDict K} {t : BinType} {B : Nat} (fs : List Nat) (st : Hists K G)
    (ht : t ≠ .discrete) (hne : data ≠ []) (hrow : ∀ row ∈ data, ∀ f ∈ fs, f < row.length)
    (hmm : ∀ mins maxs, minmax = some (mins, maxs) → ∀ f ∈ fs, f < mins.length ∧ f < maxs.length) :
    ∃ st', makeHistLoop R isCls data classes minmax d (some t) B fs st = .ok st' := by
  induction fs generalizing st with
  | nil => exact ⟨st, rfl⟩
  | cons f fs ih =>
    obtain ⟨st', hst⟩ := makeHistStep_total (R := R) (isCls := isCls) (classes := classes) (d := d) (B := B) st ht hne
      (fun row hr => hrow row hr f List.mem_cons_self) (fun a b hab => hmm a b hab f List.mem_cons_self)
    simp only [makeHistLoop, hst]
    exact ih st' (fun row hr g hg => hrow row hr g (List.mem_cons_of_mem _ hg))
      (fun a b hab g hg => hmm a b hab g (List.mem_cons_of_mem _ hg))

end FF
