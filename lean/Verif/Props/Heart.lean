import Verif.Model.Heart
import Verif.Spec.Heart
import Mathlib.Logic.Equiv.Basic
import Mathlib.Data.String.Basic

/-!
# C148: preprocessing of the heart data
-/

namespace FF

open Spec

set_option linter.unusedSectionVars false

variable {V W : Type} [LinearOrder V]

theorem Frame.col_ok {df : Frame V W} {c : V} (h : c ∈ df.map Prod.fst) : ∃ v, df.col c = .ok v ∧ (c, v) ∈ df := by
  obtain ⟨p, hp, rfl⟩ := List.mem_map.1 h
  unfold Frame.col
  cases hf : df.find? (fun q => decide (q.1 = p.1)) with
  | none =>
    have := List.find?_eq_none.1 hf p hp
    simp at this
  | some q =>
    have h1 := List.find?_some hf
    have h2 := List.mem_of_find?_eq_some hf
    simp only [decide_eq_true_eq] at h1
    exact ⟨q.2, rfl, by rw [← h1]; exact h2⟩

theorem Frame.select_ok {df : Frame V W} {cs : List V} (h : ∀ c ∈ cs, c ∈ df.map Prod.fst) :
    ∃ out, df.select cs = .ok out ∧ out.map Prod.fst = cs ∧ ∀ p ∈ out, p ∈ df := by
  induction cs with
  | nil => exact ⟨[], rfl, rfl, by simp⟩
  | cons c cs ih =>
    obtain ⟨v, h1, h2⟩ := Frame.col_ok (h c List.mem_cons_self)
    obtain ⟨out, i1, i2, i3⟩ := ih (fun c' hc' => h c' (List.mem_cons_of_mem _ hc'))
    refine ⟨(c, v) :: out, ?_, by rw [List.map_cons, i2], ?_⟩
    · unfold Frame.select
      rw [h1, i1]
    · intro p hp
      rcases List.mem_cons.1 hp with rfl | hp
      exacts [h2, i3 p hp]

theorem nameIndex_ok {names : List V} {c : V} (h : c ∈ names) : ∃ i, nameIndex names c = .ok i ∧ names[i]? = some c := by
  unfold nameIndex
  cases hf : names.findIdx? (fun a => decide (a = c)) with
  | none =>
    have := List.findIdx?_eq_none_iff.1 hf c h
    simp at this
  | some i =>
    refine ⟨i, rfl, ?_⟩
    obtain ⟨hi, h1, _⟩ := List.findIdx?_eq_some_iff_getElem.1 hf
    simp only [decide_eq_true_eq] at h1
    rw [List.getElem?_eq_getElem hi, h1]

/-- Two entries of a list without repetitions are swapped. -/
theorem set_set_swap {names : List V} (hn : names.Nodup) {x y : Nat} {a b : V} (hx : names[x]? = some a) (hy : names[y]? = some b) :
    (names.set y a).set x b = names.map (fun c => if c = a then b else if c = b then a else c) := by
  refine List.ext_getElem? (fun i => ?_)
  obtain ⟨hxl, hxa⟩ := List.getElem?_eq_some_iff.1 hx
  obtain ⟨hyl, hyb⟩ := List.getElem?_eq_some_iff.1 hy
  rw [List.getElem?_map]
  by_cases hix : i = x
  · subst hix
    rw [List.getElem?_set_self (by rw [List.length_set]; exact hxl), hx, Option.map_some, if_pos rfl]
  · rw [List.getElem?_set_ne (Ne.symm hix)]
    by_cases hiy : i = y
    · subst hiy
      rw [List.getElem?_set_self hyl, hy, Option.map_some]
      have hba : b ≠ a := by
        intro e
        apply hix
        rw [← hxa, ← hyb] at e
        exact (List.Nodup.getElem_inj_iff hn).1 e
      rw [if_neg hba, if_pos rfl]
    · rw [List.getElem?_set_ne (Ne.symm hiy)]
      by_cases hil : i < names.length
      · rw [List.getElem?_eq_getElem hil, Option.map_some]
        have h1 : names[i] ≠ a := by
          intro e
          rw [← hxa] at e
          exact hix ((List.Nodup.getElem_inj_iff hn).1 e)
        have h2 : names[i] ≠ b := by
          intro e
          rw [← hyb] at e
          exact hiy ((List.Nodup.getElem_inj_iff hn).1 e)
        rw [if_neg h1, if_neg h2]
      · rw [List.getElem?_eq_none (by omega)]
        rfl

theorem swapColumns_ok {df : Frame V W} (hn : (df.map Prod.fst).Nodup) {a b : V} (ha : a ∈ df.map Prod.fst) (hb : b ∈ df.map Prod.fst) :
    ∃ out, swapColumns df a b = .ok out ∧
      out.map Prod.fst = (df.map Prod.fst).map (fun c => if c = a then b else if c = b then a else c) ∧ ∀ p ∈ out, p ∈ df := by
  obtain ⟨x, hx1, hx2⟩ := nameIndex_ok ha
  obtain ⟨y, hy1, hy2⟩ := nameIndex_ok hb
  have hs := set_set_swap hn hx2 hy2
  obtain ⟨out, h1, h2, h3⟩ := Frame.select_ok (df := df) (cs := (df.map Prod.fst).map (fun c => if c = a then b else if c = b then a else c)) (by
    intro c hc
    obtain ⟨c', hc', rfl⟩ := List.mem_map.1 hc
    split_ifs
    exacts [hb, ha, hc'])
  refine ⟨out, ?_, h2, h3⟩
  unfold swapColumns
  dsimp only
  rw [hx1, hy1]
  dsimp only
  rw [hx2, hy2]
  dsimp only
  rw [hs, h1]

theorem mem_uniqueSorted {l : List V} {x : V} : x ∈ uniqueSorted l ↔ x ∈ l := by
  unfold uniqueSorted
  rw [(List.perm_insertionSort _ _).mem_iff, List.mem_dedup]

theorem uniqueSorted_nodup (l : List V) : (uniqueSorted l).Nodup := (List.perm_insertionSort _ _).nodup_iff.2 (List.nodup_dedup l)

theorem uniqueSorted_sorted (l : List V) : (uniqueSorted l).Pairwise (· < ·) := by
  have h1 : (uniqueSorted l).Pairwise (· ≤ ·) := List.pairwise_insertionSort _ _
  have h2 : (uniqueSorted l).Pairwise (· ≠ ·) := uniqueSorted_nodup l
  exact (List.pairwise_and_iff.2 ⟨h1, h2⟩).imp (fun h => lt_of_le_of_ne h.1 h.2)

/-- The position in a sorted list is the number of smaller entries. -/
theorem idxOf_sorted {l : List V} (h : l.Pairwise (· < ·)) {v : V} (hv : v ∈ l) : l.idxOf v = (l.filter (fun w => decide (w < v))).length := by
  induction l with
  | nil => cases hv
  | cons a l ih =>
    obtain ⟨h1, h2⟩ := List.pairwise_cons.1 h
    by_cases hav : a = v
    · subst hav
      rw [List.idxOf_cons_self, List.filter_cons_of_neg (by simp)]
      have : l.filter (fun w => decide (w < a)) = [] := by
        rw [List.filter_eq_nil_iff]
        intro w hw
        simpa using (h1 w hw).le
      rw [this]
      rfl
    · have hv' : v ∈ l := by
        rcases List.mem_cons.1 hv with rfl | hv
        exacts [absurd rfl hav, hv]
      rw [List.idxOf_cons_ne _ hav, ih h2 hv', List.filter_cons_of_pos (by simpa using h1 v hv'), List.length_cons]

theorem encode_rank {vs : List V} {v : V} (hv : v ∈ vs) : (uniqueSorted vs).idxOf v = rankIn vs v := by
  rw [idxOf_sorted (uniqueSorted_sorted vs) (mem_uniqueSorted.2 hv)]
  unfold rankIn uniqueSorted
  exact ((List.perm_insertionSort _ _).filter _).length_eq

/-- Ranks keep the order. -/
theorem rankIn_lt {vs : List V} {v w : V} (hv : v ∈ vs) : rankIn vs v < rankIn vs w ↔ v < w := by
  constructor
  · intro h
    by_contra hle
    have : rankIn vs w ≤ rankIn vs v := by
      unfold rankIn
      refine List.Sublist.length_le (List.monotone_filter_right _ (fun x hx => ?_))
      simp only [decide_eq_true_eq] at hx ⊢
      exact lt_of_lt_of_le hx (not_lt.1 hle)
    omega
  · intro h
    unfold rankIn
    have hsub : (vs.dedup.filter (fun x => decide (x < v))).Sublist (vs.dedup.filter (fun x => decide (x < w))) := by
      refine List.monotone_filter_right _ (fun x hx => ?_)
      simp only [decide_eq_true_eq] at hx ⊢
      exact lt_trans hx h
    refine lt_of_le_of_ne hsub.length_le (fun e => ?_)
    have hm : v ∈ vs.dedup.filter (fun x => decide (x < w)) := List.mem_filter.2 ⟨List.mem_dedup.2 hv, by simpa using h⟩
    rw [← hsub.eq_of_length e] at hm
    have := (List.mem_filter.1 hm).2
    simp at this

theorem rankIn_inj {vs : List V} {v w : V} (hv : v ∈ vs) (hw : w ∈ vs) (h : rankIn vs v = rankIn vs w) : v = w := by
  rcases lt_trichotomy v w with hlt | heq | hgt
  · have := (rankIn_lt hv).2 hlt
    omega
  · exact heq
  · have := (rankIn_lt hw).2 hgt
    omega

theorem encodeColumns_ok {df : Frame V V} (h : ∀ p ∈ df, p.2 ≠ []) :
    encodeColumns df = .ok (df.map (fun p => (p.1, p.2.map (rankIn p.2)))) := by
  induction df with
  | nil => rfl
  | cons p df ih =>
    obtain ⟨c, vs⟩ := p
    have h1 : encodeColumn vs = .ok (vs.map (rankIn vs)) := by
      have hne : vs ≠ [] := h (c, vs) List.mem_cons_self
      have e : vs.map (fun v => (uniqueSorted vs).idxOf v) = vs.map (rankIn vs) := List.map_congr_left (fun v hv => encode_rank hv)
      rw [← e]
      cases vs with
      | nil => exact absurd rfl hne
      | cons _ _ => rfl
    unfold encodeColumns
    rw [h1, ih (fun p hp => h p (List.mem_cons_of_mem _ hp))]
    rfl

/-- Membership by name. -/
theorem frame_unique {df : Frame V W} (hn : (df.map Prod.fst).Nodup) {c : V} {u v : List W} (hu : (c, u) ∈ df) (hv : (c, v) ∈ df) : u = v := by
  have := List.inj_on_of_nodup_map hn hu hv rfl
  exact congrArg Prod.snd this

/-- C148. A table with different names, at least one row, the label first and the column `race`, none of whose values is the name of another
column. The result has the columns of the table (the one that was last takes the place of `race`), then one column for each
value of `race`, then the label. Each cell of a column other than `race` becomes the rank of its value in the column, so the order is kept;
the column of a value of `race` has 1 where the row has that value and 0 elsewhere. Rows are the same afterwards exactly if they were before. -/
theorem C148_preprocess {race lab : V} {ys : List V} {feats : Frame V V} {n : Nat} (hn : (((lab, ys) :: feats).map Prod.fst).Nodup) (hpos : 0 < n)
    (hlen : ∀ p ∈ (lab, ys) :: feats, p.2.length = n) {rs : List V} (hrace : (race, rs) ∈ feats)
    (hclash : ∀ p ∈ (lab, ys) :: feats, p.1 ≠ race → p.1 ∉ rs) :
    ∃ (out : Frame V Nat) (last : V) (races : List V), preprocessHeart race ((lab, ys) :: feats) = .ok out ∧
      (feats.map Prod.fst).getLast? = some last ∧ races.Pairwise (· < ·) ∧ (∀ r, r ∈ races ↔ r ∈ rs) ∧
      out.map Prod.fst = ((feats.map Prod.fst).map (fun c => if c = race then last else if c = last then race else c)).dropLast ++ races ++ [lab] ∧
      (∀ c vs, (c, vs) ∈ (lab, ys) :: feats → c ≠ race → (c, vs.map (rankIn vs)) ∈ out) ∧
      (∀ r ∈ rs, (r, rs.map (fun v => if v = r then 1 else 0)) ∈ out) ∧
      ∀ i < n, ∀ j < n, (SameRow out i j ↔ SameRow ((lab, ys) :: feats) i j) := by
  obtain ⟨df, hdf⟩ : ∃ df, df = (lab, ys) :: feats := ⟨_, rfl⟩
  have hlab : lab ∉ feats.map Prod.fst := by
    rw [List.map_cons] at hn
    exact (List.nodup_cons.1 hn).1
  have hracemem : race ∈ feats.map Prod.fst := List.mem_map.2 ⟨_, hrace, rfl⟩
  have hfne : feats.map Prod.fst ≠ [] := List.ne_nil_of_mem hracemem
  obtain ⟨last, hlast⟩ : ∃ last, (feats.map Prod.fst).getLast? = some last := ⟨_, List.getLast?_eq_some_getLast hfne⟩
  have hlastmem : last ∈ feats.map Prod.fst := List.mem_of_getLast? hlast
  have hlabrace : lab ≠ race := fun e => hlab (e ▸ hracemem)
  have hlablast : lab ≠ last := fun e => hlab (e ▸ hlastmem)
  have hnames : df.map Prod.fst = lab :: feats.map Prod.fst := by rw [hdf]; rfl
  have hn' : (df.map Prod.fst).Nodup := by rw [hdf]; exact hn
  obtain ⟨σ, hσ⟩ : ∃ σ : V → V, σ = fun c => if c = race then last else if c = last then race else c := ⟨_, rfl⟩
  have hσinj : Function.Injective σ := by
    have : σ = Equiv.swap race last := by
      rw [hσ]
      funext c
      rw [Equiv.swap_apply_def]
    rw [this]
    exact (Equiv.swap race last).injective
  have hσσ : ∀ c, σ (σ c) = c := by
    intro c
    have : σ = Equiv.swap race last := by
      rw [hσ]
      funext c
      rw [Equiv.swap_apply_def]
    rw [this, Equiv.swap_apply_self]
  have hσlab : σ lab = lab := by
    rw [hσ]
    beta_reduce
    rw [if_neg hlabrace, if_neg hlablast]
  have hσlast : σ last = race := by
    rw [hσ]
    beta_reduce
    by_cases e : last = race
    · rw [if_pos e, e]
    · rw [if_neg e, if_pos rfl]
  obtain ⟨df1, h1, h2, h3⟩ := swapColumns_ok (df := df) hn' (a := race) (b := last) (by rw [hnames]; exact List.mem_cons_of_mem _ hracemem)
    (by rw [hnames]; exact List.mem_cons_of_mem _ hlastmem)
  rw [← hσ, hnames, List.map_cons, hσlab] at h2
  -- the names after swapping
  obtain ⟨X, hX⟩ : ∃ X, X = ((feats.map Prod.fst).map σ).dropLast := ⟨_, rfl⟩
  have hXr : (feats.map Prod.fst).map σ = X ++ [race] := by
    have hg : ((feats.map Prod.fst).map σ).getLast? = some race := by
      rw [List.getLast?_map, hlast, Option.map_some, hσlast]
    obtain ⟨ys', hys'⟩ := List.getLast?_eq_some_iff.1 hg
    rw [hX, hys', List.dropLast_concat]
  have hnod1 : (lab :: (X ++ [race])).Nodup := by
    have : ((lab :: feats.map Prod.fst).map σ).Nodup := (hnames ▸ hn').map hσinj
    rwa [List.map_cons, hσlab, hXr] at this
  rw [hXr] at h2
  have hd : (df1.dropLast).map Prod.fst = lab :: X := by
    rw [List.map_dropLast, h2, ← List.cons_append, List.dropLast_concat]
  have hraceX : race ∉ lab :: X := by
    rw [← List.cons_append] at hnod1
    intro hm
    exact (List.nodup_append.1 hnod1).2.2 race hm race (by simp) rfl
  have hnodX : (lab :: X).Nodup := by
    rw [← List.cons_append] at hnod1
    exact (List.nodup_append.1 hnod1).1
  have hdmem : ∀ p ∈ df1.dropLast, p ∈ df ∧ p.1 ≠ race := by
    intro p hp
    refine ⟨h3 p (List.dropLast_subset _ hp), fun e => hraceX ?_⟩
    rw [← e, ← hd]
    exact List.mem_map_of_mem hp
  have hdall : ∀ c vs, (c, vs) ∈ df → c ≠ race → (c, vs) ∈ df1.dropLast := by
    intro c vs hc hcr
    have hc1 : c ∈ lab :: (X ++ [race]) := by
      have hcn : c ∈ df.map Prod.fst := List.mem_map.2 ⟨_, hc, rfl⟩
      rw [hnames] at hcn
      rw [← hXr]
      rcases List.mem_cons.1 hcn with rfl | hcn
      · exact List.mem_cons_self
      · refine List.mem_cons_of_mem _ ?_
        have hsc : σ c ∈ feats.map Prod.fst := by
          rw [hσ]
          beta_reduce
          split_ifs
          exacts [hlastmem, hracemem, hcn]
        exact List.mem_map.2 ⟨σ c, hsc, hσσ c⟩
    have hc2 : c ∈ (df1.dropLast).map Prod.fst := by
      rw [hd]
      rw [← List.cons_append] at hc1
      rcases List.mem_append.1 hc1 with hc1 | hc1
      · exact hc1
      · exact absurd (List.mem_singleton.1 hc1) hcr
    obtain ⟨⟨c', u⟩, hp, rfl⟩ := List.mem_map.1 hc2
    rw [frame_unique hn' hc (hdmem _ hp).1]
    exact hp
  -- the column of races
  obtain ⟨rs', hrs1, hrs2⟩ := Frame.col_ok (df := df1) (c := race) (by rw [h2]; simp)
  have hrsdf : (race, rs) ∈ df := by
    rw [hdf]
    exact List.mem_cons_of_mem _ hrace
  have hrs : rs' = rs := frame_unique hn' (h3 _ hrs2) hrsdf
  rw [hrs] at hrs1
  have hlen' : ∀ p ∈ df, p.2.length = n := by rw [hdf]; exact hlen
  have hclash' : ∀ p ∈ df, p.1 ≠ race → p.1 ∉ rs := by rw [hdf]; exact hclash
  have henc := encodeColumns_ok (df := df1.dropLast) (by
    intro p hp e
    have := hlen' p (hdmem p hp).1
    rw [e] at this
    simp at this
    omega)
  obtain ⟨enc, hencdef⟩ : ∃ enc, enc = (df1.dropLast).map (fun p => (p.1, p.2.map (rankIn p.2))) := ⟨_, rfl⟩
  rw [← hencdef] at henc
  have hencnames : enc.map Prod.fst = lab :: X := by
    rw [hencdef, List.map_map, ← hd]
    rfl
  have hleft : enc.filter (fun p => decide (p.1 ≠ race)) = enc := by
    rw [List.filter_eq_self]
    intro p hp
    have : p.1 ∈ lab :: X := by
      rw [← hencnames]
      exact List.mem_map_of_mem hp
    simp only [ne_eq, decide_not, Bool.not_eq_true', decide_eq_false_iff_not]
    intro e
    rw [e] at this
    exact hraceX this
  have hhot : (getDummies rs).map Prod.fst = uniqueSorted rs := by
    unfold getDummies
    rw [List.map_map]
    exact List.map_id _
  have hXrs : ∀ c ∈ lab :: X, c ∉ rs := by
    intro c hc
    rw [← hd] at hc
    obtain ⟨p, hp, rfl⟩ := List.mem_map.1 hc
    exact hclash' p (hdmem p hp).1 (hdmem p hp).2
  have hany : enc.any (fun p => ((getDummies rs).map Prod.fst).contains p.1) = false := by
    rw [List.any_eq_false]
    intro p hp
    rw [hhot]
    have : p.1 ∈ lab :: X := by
      rw [← hencnames]
      exact List.mem_map_of_mem hp
    rw [List.contains_iff_mem, mem_uniqueSorted]
    exact hXrs _ this
  have hallnames : (enc ++ getDummies rs).map Prod.fst = lab :: (X ++ uniqueSorted rs) := by
    rw [List.map_append, hencnames, hhot]
    rfl
  have hallnodup : ((enc ++ getDummies rs).map Prod.fst).Nodup := by
    rw [hallnames, ← List.cons_append]
    refine List.nodup_append.2 ⟨hnodX, uniqueSorted_nodup rs, ?_⟩
    intro a ha b hb e
    rw [mem_uniqueSorted] at hb
    exact hXrs a ha (e ▸ hb)
  obtain ⟨out, o1, o2, o3⟩ := Frame.select_ok (df := enc ++ getDummies rs) (cs := X ++ uniqueSorted rs ++ [lab]) (by
    intro c hc
    rw [hallnames]
    simp only [List.mem_append, List.mem_cons, List.not_mem_nil, or_false] at hc ⊢
    tauto)
  have oall : ∀ p ∈ enc ++ getDummies rs, p ∈ out := by
    intro p hp
    have hp1 : p.1 ∈ out.map Prod.fst := by
      have : p.1 ∈ (enc ++ getDummies rs).map Prod.fst := List.mem_map_of_mem hp
      rw [hallnames] at this
      rw [o2]
      simp only [List.mem_append, List.mem_cons, List.not_mem_nil, or_false] at this ⊢
      tauto
    obtain ⟨⟨c, u⟩, hq, hqc⟩ := List.mem_map.1 hp1
    obtain ⟨c', v⟩ := p
    obtain rfl : c = c' := hqc
    rw [frame_unique hallnodup hp (o3 _ hq)]
    exact hq
  have hcols : ∀ c vs, (c, vs) ∈ df → c ≠ race → (c, vs.map (rankIn vs)) ∈ out := by
    intro c vs hc hcr
    refine oall _ (List.mem_append_left _ ?_)
    rw [hencdef]
    exact List.mem_map.2 ⟨_, hdall c vs hc hcr, rfl⟩
  have hraces : ∀ r ∈ rs, (r, rs.map (fun v => if v = r then 1 else 0)) ∈ out := by
    intro r hr
    refine oall _ (List.mem_append_right _ ?_)
    exact List.mem_map.2 ⟨r, mem_uniqueSorted.2 hr, rfl⟩
  rw [← hdf]
  refine ⟨out, last, uniqueSorted rs, ?_, hlast, uniqueSorted_sorted rs, fun r => mem_uniqueSorted, ?_, hcols, hraces, ?_⟩
  · have hgl : ∃ q, df.getLast? = some q ∧ q.1 = last := by
      have hne : feats ≠ [] := by
        intro e
        rw [e] at hrace
        cases hrace
      rw [List.getLast?_map] at hlast
      obtain ⟨q, hq, hq2⟩ := Option.map_eq_some_iff.1 hlast
      refine ⟨q, ?_, hq2⟩
      rw [hdf, List.getLast?_cons, hq]
      rfl
    obtain ⟨q, hq, hq2⟩ := hgl
    unfold preprocessHeart
    rw [hq]
    dsimp only
    rw [hq2, h1]
    dsimp only
    rw [henc]
    dsimp only
    rw [hrs1]
    dsimp only
    rw [hleft, hany, hallnames]
    exact o1
  · rw [o2, ← hσ, hX]
  · intro i hi j hj
    constructor
    · intro h p hp
      obtain ⟨c, vs⟩ := p
      have hvl : vs.length = n := hlen' _ hp
      show vs[i]? = vs[j]?
      rw [List.getElem?_eq_getElem (by omega), List.getElem?_eq_getElem (by omega)]
      by_cases hcr : c = race
      · have : vs = rs := by
          rw [hcr] at hp
          exact frame_unique hn' hp hrsdf
        subst this
        have := h _ (hraces vs[i] (List.getElem_mem _))
        simp only [List.getElem?_map] at this
        rw [List.getElem?_eq_getElem (by omega), List.getElem?_eq_getElem (by omega), Option.map_some, Option.map_some, if_pos rfl] at this
        have e := Option.some.inj this
        split_ifs at e with e'
        rw [e']
      · have := h _ (hcols c vs hp hcr)
        simp only [List.getElem?_map] at this
        rw [List.getElem?_eq_getElem (by omega), List.getElem?_eq_getElem (by omega), Option.map_some, Option.map_some] at this
        rw [rankIn_inj (List.getElem_mem _) (List.getElem_mem _) (Option.some.inj this)]
    · intro h p hp
      rcases List.mem_append.1 (o3 p hp) with hp | hp
      · rw [hencdef] at hp
        obtain ⟨q, hq, rfl⟩ := List.mem_map.1 hp
        have := h q (hdmem q hq).1
        show (q.2.map _)[i]? = (q.2.map _)[j]?
        rw [List.getElem?_map, List.getElem?_map, this]
      · obtain ⟨r, hr, rfl⟩ := List.mem_map.1 hp
        have := h _ hrsdf
        show (rs.map _)[i]? = (rs.map _)[j]?
        dsimp only at this
        rw [List.getElem?_map, List.getElem?_map, this]

/-- The steps before the recoding: `race` is moved to the end, every other column stays in front of it. -/
theorem preprocess_front {race lab : V} {ys : List V} {feats : Frame V V} (hn : (((lab, ys) :: feats).map Prod.fst).Nodup) {rs : List V}
    (hrace : (race, rs) ∈ feats) :
    ∃ (last : V) (df1 : Frame V V), (((lab, ys) :: feats).getLast?).map Prod.fst = some last ∧ swapColumns ((lab, ys) :: feats) race last = .ok df1 ∧
      df1.col race = .ok rs ∧ (∀ p ∈ df1.dropLast, p ∈ (lab, ys) :: feats ∧ p.1 ≠ race) ∧
      ∀ c vs, (c, vs) ∈ (lab, ys) :: feats → c ≠ race → (c, vs) ∈ df1.dropLast := by
  obtain ⟨df, hdf⟩ : ∃ df, df = (lab, ys) :: feats := ⟨_, rfl⟩
  have hlab : lab ∉ feats.map Prod.fst := by
    rw [List.map_cons] at hn
    exact (List.nodup_cons.1 hn).1
  have hracemem : race ∈ feats.map Prod.fst := List.mem_map.2 ⟨_, hrace, rfl⟩
  have hfne : feats.map Prod.fst ≠ [] := List.ne_nil_of_mem hracemem
  obtain ⟨last, hlast⟩ : ∃ last, (feats.map Prod.fst).getLast? = some last := ⟨_, List.getLast?_eq_some_getLast hfne⟩
  have hlastmem : last ∈ feats.map Prod.fst := List.mem_of_getLast? hlast
  have hlabrace : lab ≠ race := fun e => hlab (e ▸ hracemem)
  have hlablast : lab ≠ last := fun e => hlab (e ▸ hlastmem)
  have hnames : df.map Prod.fst = lab :: feats.map Prod.fst := by rw [hdf]; rfl
  have hn' : (df.map Prod.fst).Nodup := by rw [hdf]; exact hn
  obtain ⟨σ, hσ⟩ : ∃ σ : V → V, σ = fun c => if c = race then last else if c = last then race else c := ⟨_, rfl⟩
  have hσinj : Function.Injective σ := by
    have : σ = Equiv.swap race last := by
      rw [hσ]
      funext c
      rw [Equiv.swap_apply_def]
    rw [this]
    exact (Equiv.swap race last).injective
  have hσσ : ∀ c, σ (σ c) = c := by
    intro c
    have : σ = Equiv.swap race last := by
      rw [hσ]
      funext c
      rw [Equiv.swap_apply_def]
    rw [this, Equiv.swap_apply_self]
  have hσlab : σ lab = lab := by
    rw [hσ]
    beta_reduce
    rw [if_neg hlabrace, if_neg hlablast]
  have hσlast : σ last = race := by
    rw [hσ]
    beta_reduce
    by_cases e : last = race
    · rw [if_pos e, e]
    · rw [if_neg e, if_pos rfl]
  obtain ⟨df1, h1, h2, h3⟩ := swapColumns_ok (df := df) hn' (a := race) (b := last) (by rw [hnames]; exact List.mem_cons_of_mem _ hracemem)
    (by rw [hnames]; exact List.mem_cons_of_mem _ hlastmem)
  rw [← hσ, hnames, List.map_cons, hσlab] at h2
  -- the names after swapping
  obtain ⟨X, hX⟩ : ∃ X, X = ((feats.map Prod.fst).map σ).dropLast := ⟨_, rfl⟩
  have hXr : (feats.map Prod.fst).map σ = X ++ [race] := by
    have hg : ((feats.map Prod.fst).map σ).getLast? = some race := by
      rw [List.getLast?_map, hlast, Option.map_some, hσlast]
    obtain ⟨ys', hys'⟩ := List.getLast?_eq_some_iff.1 hg
    rw [hX, hys', List.dropLast_concat]
  have hnod1 : (lab :: (X ++ [race])).Nodup := by
    have : ((lab :: feats.map Prod.fst).map σ).Nodup := (hnames ▸ hn').map hσinj
    rwa [List.map_cons, hσlab, hXr] at this
  rw [hXr] at h2
  have hd : (df1.dropLast).map Prod.fst = lab :: X := by
    rw [List.map_dropLast, h2, ← List.cons_append, List.dropLast_concat]
  have hraceX : race ∉ lab :: X := by
    rw [← List.cons_append] at hnod1
    intro hm
    exact (List.nodup_append.1 hnod1).2.2 race hm race (by simp) rfl
  have hnodX : (lab :: X).Nodup := by
    rw [← List.cons_append] at hnod1
    exact (List.nodup_append.1 hnod1).1
  have hdmem : ∀ p ∈ df1.dropLast, p ∈ df ∧ p.1 ≠ race := by
    intro p hp
    refine ⟨h3 p (List.dropLast_subset _ hp), fun e => hraceX ?_⟩
    rw [← e, ← hd]
    exact List.mem_map_of_mem hp
  have hdall : ∀ c vs, (c, vs) ∈ df → c ≠ race → (c, vs) ∈ df1.dropLast := by
    intro c vs hc hcr
    have hc1 : c ∈ lab :: (X ++ [race]) := by
      have hcn : c ∈ df.map Prod.fst := List.mem_map.2 ⟨_, hc, rfl⟩
      rw [hnames] at hcn
      rw [← hXr]
      rcases List.mem_cons.1 hcn with rfl | hcn
      · exact List.mem_cons_self
      · refine List.mem_cons_of_mem _ ?_
        have hsc : σ c ∈ feats.map Prod.fst := by
          rw [hσ]
          beta_reduce
          split_ifs
          exacts [hlastmem, hracemem, hcn]
        exact List.mem_map.2 ⟨σ c, hsc, hσσ c⟩
    have hc2 : c ∈ (df1.dropLast).map Prod.fst := by
      rw [hd]
      rw [← List.cons_append] at hc1
      rcases List.mem_append.1 hc1 with hc1 | hc1
      · exact hc1
      · exact absurd (List.mem_singleton.1 hc1) hcr
    obtain ⟨⟨c', u⟩, hp, rfl⟩ := List.mem_map.1 hc2
    rw [frame_unique hn' hc (hdmem _ hp).1]
    exact hp
  -- the column of races
  obtain ⟨rs', hrs1, hrs2⟩ := Frame.col_ok (df := df1) (c := race) (by rw [h2]; simp)
  have hrsdf : (race, rs) ∈ df := by
    rw [hdf]
    exact List.mem_cons_of_mem _ hrace
  have hrs : rs' = rs := frame_unique hn' (h3 _ hrs2) hrsdf
  rw [hrs] at hrs1
  rw [hdf] at h1 hdmem hdall
  refine ⟨last, df1, ?_, h1, hrs1, hdmem, hdall⟩
  rw [← List.getLast?_map, List.map_cons, List.getLast?_cons, hlast]
  rfl

/-- C148: a table without rows is refused. -/
theorem C148_empty {race lab : V} {ys : List V} {feats : Frame V V} (hn : (((lab, ys) :: feats).map Prod.fst).Nodup)
    (hlen : ∀ p ∈ (lab, ys) :: feats, p.2 = []) {rs : List V} (hrace : (race, rs) ∈ feats) :
    preprocessHeart race ((lab, ys) :: feats) = .error .keyError := by
  obtain ⟨last, df1, h1, h2, h3, h4, h5⟩ := preprocess_front hn hrace
  have hlab : lab ≠ race := by
    rw [List.map_cons, List.nodup_cons] at hn
    exact fun e => hn.1 (e ▸ List.mem_map.2 ⟨_, hrace, rfl⟩)
  have hmem := h5 lab ys (List.mem_cons_self ..) hlab
  have henc : encodeColumns df1.dropLast = .error .keyError := by
    obtain ⟨⟨c, vs⟩, l, e⟩ : ∃ a l, df1.dropLast = a :: l := by
      cases hd : df1.dropLast with
      | nil => rw [hd] at hmem; cases hmem
      | cons a l => exact ⟨a, l, rfl⟩
    have := hlen _ (h4 (c, vs) (by rw [e]; exact List.mem_cons_self ..)).1
    rw [e]
    simp only [] at this
    subst this
    rfl
  cases hl : ((lab, ys) :: feats).getLast? with
  | none => rw [hl] at h1; cases h1
  | some q =>
    rw [hl] at h1
    have e := Option.some.inj h1
    unfold preprocessHeart
    rw [hl]
    dsimp only
    rw [e, h2]
    dsimp only
    rw [henc]

/-- C148: a table with a column that has the name of a race is refused. -/
theorem C148_clash {race lab : V} {ys : List V} {feats : Frame V V} (hn : (((lab, ys) :: feats).map Prod.fst).Nodup)
    (hne : ∀ p ∈ (lab, ys) :: feats, p.2 ≠ []) {rs : List V} (hrace : (race, rs) ∈ feats)
    (hclash : ∃ p ∈ (lab, ys) :: feats, p.1 ≠ race ∧ p.1 ∈ rs) :
    preprocessHeart race ((lab, ys) :: feats) = .error .valueError := by
  obtain ⟨last, df1, h1, h2, h3, h4, h5⟩ := preprocess_front hn hrace
  obtain ⟨⟨c, vs⟩, hp, hcr, hcrs⟩ := hclash
  have hmem := h5 c vs hp hcr
  have henc := encodeColumns_ok (df := df1.dropLast) (fun p hp => hne p (h4 p hp).1)
  cases hl : ((lab, ys) :: feats).getLast? with
  | none => rw [hl] at h1; cases h1
  | some q =>
    rw [hl] at h1
    have e := Option.some.inj h1
    unfold preprocessHeart
    rw [hl]
    dsimp only
    rw [e, h2]
    dsimp only
    rw [henc]
    dsimp only
    rw [h3]
    dsimp only
    rw [if_pos]
    rw [List.any_eq_true]
    refine ⟨(c, vs.map (rankIn vs)), ?_, ?_⟩
    · rw [List.mem_filter]
      exact ⟨List.mem_map.2 ⟨_, hmem, rfl⟩, by simpa using hcr⟩
    · unfold getDummies
      rw [List.map_map, List.contains_iff_mem]
      refine List.mem_map.2 ⟨c, ?_, rfl⟩
      unfold uniqueSorted
      rw [List.mem_insertionSort, List.mem_dedup]
      exact hcrs

/-- Codes keep the order of the values, and equal codes mean equal values. -/
theorem C148_order {vs : List V} {i j : Nat} {v w : V} (hv : vs[i]? = some v) (hw : vs[j]? = some w) :
    ∃ a b, (vs.map (rankIn vs))[i]? = some a ∧ (vs.map (rankIn vs))[j]? = some b ∧ (a < b ↔ v < w) ∧ (a = b ↔ v = w) := by
  refine ⟨rankIn vs v, rankIn vs w, by rw [List.getElem?_map, hv]; rfl, by rw [List.getElem?_map, hw]; rfl,
    rankIn_lt (List.mem_of_getElem? hv), rankIn_inj (List.mem_of_getElem? hv) (List.mem_of_getElem? hw), fun e => by rw [e]⟩

/-- A table of numbers: names 100 (label), 101, 102 ("race") and 103; three rows. -/
def exHeart : Frame Nat Nat := [(100, [1, 0, 1]), (101, [30, 70, 30]), (102, [7, 5, 7]), (103, [2, 9, 4])]

/-- **C148, refuted**: columns of numbers are recoded too (the comparison with the type `float` in line 38 is always true): 30, 70 and 2, 9, 4 become
0, 1 and 0, 2, 1. The last column has changed places with the races. -/
theorem C148_refuted : preprocessHeart 102 exHeart =
    .ok [(101, [0, 1, 0]), (103, [0, 2, 1]), (5, [0, 1, 0]), (7, [1, 0, 1]), (100, [1, 0, 1])] := by decide +kernel

/-- **C148, refuted**: codes of texts follow the alphabet. The answers "Excellent", "Fair", "Good", "Poor", "Very good" get the codes 0 to 4, so "Fair" lies
below "Good" and "Poor" between "Good" and "Very good". -/
theorem C148_refuted_words :
    ["Poor", "Fair", "Good", "Very good", "Excellent"].map (rankIn ["Poor", "Fair", "Good", "Very good", "Excellent"]) = [3, 1, 2, 4, 0] := by
  decide +kernel

/-- The hypotheses of `C148_preprocess` can be met. -/
example : ∃ out, preprocessHeart 102 exHeart = .ok out ∧ ∀ i < 3, ∀ j < 3, (SameRow out i j ↔ SameRow exHeart i j) := by
  obtain ⟨out, _, _, h1, _, _, _, _, _, _, h2⟩ := C148_preprocess (race := 102) (lab := 100) (ys := [1, 0, 1])
    (feats := [(101, [30, 70, 30]), (102, [7, 5, 7]), (103, [2, 9, 4])]) (n := 3) (by decide) (by decide) (by decide) (rs := [7, 5, 7]) (by decide) (by decide)
  exact ⟨out, h1, h2⟩

/-- The hypotheses of `C148_empty` and of `C148_clash` can be met. -/
example : preprocessHeart 102 [(100, ([] : List Nat)), (101, []), (102, [])] = .error .keyError ∧
    preprocessHeart 102 [(100, [1, 0]), (101, [30, 70]), (102, [101, 5])] = .error .valueError :=
  ⟨C148_empty (by decide) (by decide) (rs := []) (by decide), C148_clash (by decide) (by decide) (rs := [101, 5]) (by decide) ⟨(101, [30, 70]), by decide⟩⟩

end FF
