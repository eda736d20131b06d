import Verif.Model.Scaling
import Verif.Props.Compare
import Verif.Props.MabCost
import Mathlib.Tactic.Linarith
import Mathlib.Tactic.Ring
import Mathlib.Tactic.FieldSimp
import Mathlib.Tactic.Push

/-!
# C152: the scaling experiment
-/

set_option linter.unusedSectionVars false

namespace FF
open Spec

variable {K : Type} [Field K] [LinearOrder K] [IsStrictOrderedRing K] [FloorRing K] [NpFun K] {G : Type}

/-! ## The fit -/

/-- The sum of the squared distances of points from a line. -/
def lineError (b a : K) (ps : List (K × K)) : K := (ps.map (fun p => (b * p.1 + a - p.2) ^ 2)).sum

/-- All points lie on a line. -/
def OnLine (b a : K) (ps : List (K × K)) : Prop := ∀ p ∈ ps, p.2 = b * p.1 + a

theorem sum_sq_zero {α : Type} (f : α → K) : ∀ l : List α, (l.map (fun x => (f x) ^ 2)).sum = 0 ↔ ∀ x ∈ l, f x = 0
  | [] => by simp
  | x :: l => by
    have h1 : 0 ≤ (f x) ^ 2 := sq_nonneg _
    have h2 : 0 ≤ (l.map (fun x => (f x) ^ 2)).sum := List.sum_nonneg (by
      intro y hy
      obtain ⟨z, _, rfl⟩ := List.mem_map.1 hy
      exact sq_nonneg _)
    rw [List.map_cons, List.sum_cons]
    constructor
    · intro h
      have e1 : (f x) ^ 2 = 0 := by linarith
      have e2 : (l.map (fun x => (f x) ^ 2)).sum = 0 := by linarith
      intro y hy
      rcases List.mem_cons.1 hy with rfl | hy
      · exact pow_eq_zero_iff (two_ne_zero) |>.1 e1
      · exact (sum_sq_zero f l).1 e2 y hy
    · intro h
      rw [h x List.mem_cons_self, (sum_sq_zero f l).2 (fun y hy => h y (List.mem_cons_of_mem _ hy))]
      ring

theorem lineError_nonneg (b a : K) (ps : List (K × K)) : 0 ≤ lineError b a ps :=
  List.sum_nonneg (by
    intro y hy
    obtain ⟨z, _, rfl⟩ := List.mem_map.1 hy
    exact sq_nonneg _)

theorem lineError_zero (b a : K) (ps : List (K × K)) : lineError b a ps = 0 ↔ OnLine b a ps := by
  unfold lineError
  rw [sum_sq_zero (fun p : K × K => b * p.1 + a - p.2)]
  unfold OnLine
  constructor
  · intro h p hp
    linarith [h p hp]
  · intro h p hp
    linarith [h p hp]

/-- The centred sums. -/
def cxx (ps : List (K × K)) (mx : K) : K := (ps.map (fun p => (p.1 - mx) * (p.1 - mx))).sum
def cxy (ps : List (K × K)) (mx my : K) : K := (ps.map (fun p => (p.1 - mx) * (p.2 - my))).sum
def cyy (ps : List (K × K)) (my : K) : K := (ps.map (fun p => (my - p.2) * (my - p.2))).sum

theorem lineError_expand (b a mx my : K) : ∀ ps : List (K × K),
    lineError b a ps = b ^ 2 * cxx ps mx - 2 * b * cxy ps mx my + cyy ps my + (ps.length : K) * (b * mx + a - my) ^ 2 +
      2 * (b * mx + a - my) * (b * ((ps.map Prod.fst).sum - ps.length * mx) - ((ps.map Prod.snd).sum - ps.length * my))
  | [] => by simp [lineError, cxx, cxy, cyy]
  | p :: ps => by
    have ih := lineError_expand b a mx my ps
    unfold lineError cxx cxy cyy at ih ⊢
    simp only [List.map_cons, List.sum_cons, List.length_cons, Nat.cast_add, Nat.cast_one]
    rw [ih]
    ring

theorem lineError_means {ps : List (K × K)} (h : ps ≠ []) (b a : K) :
    lineError b a ps = b ^ 2 * cxx ps (npMean (ps.map Prod.fst)) - 2 * b * cxy ps (npMean (ps.map Prod.fst)) (npMean (ps.map Prod.snd)) +
      cyy ps (npMean (ps.map Prod.snd)) + (ps.length : K) * (b * npMean (ps.map Prod.fst) + a - npMean (ps.map Prod.snd)) ^ 2 := by
  have h1 : npMean (ps.map Prod.fst) * (ps.length : K) = (ps.map Prod.fst).sum := by
    have := npMean_mul_length (l := ps.map Prod.fst) (by simpa using h)
    rwa [List.length_map] at this
  have h2 : npMean (ps.map Prod.snd) * (ps.length : K) = (ps.map Prod.snd).sum := by
    have := npMean_mul_length (l := ps.map Prod.snd) (by simpa using h)
    rwa [List.length_map] at this
  rw [lineError_expand b a (npMean (ps.map Prod.fst)) (npMean (ps.map Prod.snd)), ← h1, ← h2]
  ring

theorem cxx_nonneg (ps : List (K × K)) (mx : K) : 0 ≤ cxx ps mx :=
  List.sum_nonneg (by
    intro y hy
    obtain ⟨z, _, rfl⟩ := List.mem_map.1 hy
    exact mul_self_nonneg _)

theorem cxy_zero {ps : List (K × K)} {mx my : K} (h : cxx ps mx = 0) : cxy ps mx my = 0 := by
  have h1 : (ps.map (fun p : K × K => (p.1 - mx) ^ 2)).sum = 0 := by
    have : (fun p : K × K => (p.1 - mx) ^ 2) = (fun p => (p.1 - mx) * (p.1 - mx)) := by funext p; ring
    rw [this]
    exact h
  have h2 := (sum_sq_zero (fun p : K × K => p.1 - mx) ps).1 h1
  unfold cxy
  have : ps.map (fun p : K × K => (p.1 - mx) * (p.2 - my)) = ps.map (fun _ => (0 : K)) :=
    List.map_congr_left (fun p hp => by rw [h2 p hp, zero_mul])
  rw [this]
  simp

/-- C152: the fitted line is a best one: no line has a smaller sum of squared distances from the points. -/
theorem C152_best_line {ps : List (K × K)} (h : ps ≠ []) (b a : K) : lineError (lineFit ps).1 (lineFit ps).2 ps ≤ lineError b a ps := by
  rw [lineError_means h, lineError_means h b a]
  have e1 : lineFit ps = (if cxx ps (npMean (ps.map Prod.fst)) = 0 then 0 else
      cxy ps (npMean (ps.map Prod.fst)) (npMean (ps.map Prod.snd)) / cxx ps (npMean (ps.map Prod.fst)),
      npMean (ps.map Prod.snd) - (if cxx ps (npMean (ps.map Prod.fst)) = 0 then 0 else
        cxy ps (npMean (ps.map Prod.fst)) (npMean (ps.map Prod.snd)) / cxx ps (npMean (ps.map Prod.fst))) * npMean (ps.map Prod.fst)) := rfl
  rw [e1]
  dsimp only
  have hxx := cxx_nonneg ps (npMean (ps.map Prod.fst))
  have hz : cxx ps (npMean (ps.map Prod.fst)) = 0 → cxy ps (npMean (ps.map Prod.fst)) (npMean (ps.map Prod.snd)) = 0 := fun hx => cxy_zero hx
  have hl : (0 : K) ≤ ps.length := Nat.cast_nonneg _
  generalize cxx ps (npMean (ps.map Prod.fst)) = X at *
  generalize cxy ps (npMean (ps.map Prod.fst)) (npMean (ps.map Prod.snd)) = Y at *
  generalize npMean (ps.map Prod.fst) = mx at *
  generalize npMean (ps.map Prod.snd) = my at *
  generalize cyy ps my = Z at *
  have hsq := mul_nonneg hl (sq_nonneg (b * mx + a - my))
  by_cases hx : X = 0
  · rw [if_pos hx, hz hx, hx]
    ring_nf at hsq ⊢
    linarith
  · rw [if_neg hx]
    have hx' : 0 < X := lt_of_le_of_ne hxx (Ne.symm hx)
    have key : (Y / X) ^ 2 * X - 2 * (Y / X) * Y = - (Y ^ 2 / X) := by field_simp; ring
    have key2 : b ^ 2 * X - 2 * b * Y = X * (b - Y / X) ^ 2 - Y ^ 2 / X := by field_simp; ring
    have key3 : (ps.length : K) * (Y / X * mx + (my - Y / X * mx) - my) ^ 2 = 0 := by ring
    rw [key, key3, key2]
    have := mul_nonneg hxx (sq_nonneg (b - Y / X))
    linarith

/-- The value `R²` should have. -/
theorem rSquared_eq (ps : List (K × K)) (hne : cyy ps (npMean (ps.map Prod.snd)) ≠ 0) :
    rSquared ps = .fin (1 - lineError (lineFit ps).1 (lineFit ps).2 ps / cyy ps (npMean (ps.map Prod.snd))) := by
  have e : (ps.map (fun p => ((lineFit ps).1 * p.1 + (lineFit ps).2 - p.2) * ((lineFit ps).1 * p.1 + (lineFit ps).2 - p.2))).sum =
      lineError (lineFit ps).1 (lineFit ps).2 ps := by
    unfold lineError
    congr 1
    exact List.map_congr_left (fun p _ => by ring)
  have e2 : rSquared ps = (XF.fin 1).sub ((XF.fin (lineError (lineFit ps).1 (lineFit ps).2 ps)).div (XF.fin (cyy ps (npMean (ps.map Prod.snd))))) := by
    rw [← e]
    rfl
  rw [e2]
  unfold XF.div
  dsimp only
  rw [if_neg hne]
  show XF.fin (1 + -_) = _
  rw [sub_eq_add_neg]

theorem cyy_eq {ps : List (K × K)} (h : ps ≠ []) : cyy ps (npMean (ps.map Prod.snd)) = lineError 0 (npMean (ps.map Prod.snd)) ps := by
  unfold cyy lineError
  congr 1
  exact List.map_congr_left (fun p _ => by ring)

/-- C152: the number printed as `R²` lies between 0 and 1 if the costs are not all equal. -/
theorem C152_between {ps : List (K × K)} (hne : ∃ p ∈ ps, ∃ q ∈ ps, p.2 ≠ q.2) :
    ∃ r : K, rSquared ps = .fin r ∧ 0 ≤ r ∧ r ≤ 1 ∧ (r = 1 ↔ ∃ b a : K, OnLine b a ps) := by
  obtain ⟨p, hp, q, hq, hpq⟩ := hne
  have h : ps ≠ [] := List.ne_nil_of_mem hp
  have hz : cyy ps (npMean (ps.map Prod.snd)) ≠ 0 := by
    rw [cyy_eq h]
    intro e
    have := (lineError_zero _ _ _).1 e
    have a1 := this p hp
    have a2 := this q hq
    exact hpq (by rw [a1, a2]; ring)
  have hpos : 0 < cyy ps (npMean (ps.map Prod.snd)) := lt_of_le_of_ne (by rw [cyy_eq h]; exact lineError_nonneg _ _ _) (Ne.symm hz)
  have hbest := C152_best_line h 0 (npMean (ps.map Prod.snd))
  rw [← cyy_eq h] at hbest
  refine ⟨_, rSquared_eq ps hz, ?_, ?_, ?_⟩
  · have := (div_le_one hpos).2 hbest
    linarith
  · have := div_nonneg (lineError_nonneg (lineFit ps).1 (lineFit ps).2 ps) hpos.le
    linarith
  · constructor
    · intro e
      refine ⟨(lineFit ps).1, (lineFit ps).2, (lineError_zero _ _ _).1 ?_⟩
      have : lineError (lineFit ps).1 (lineFit ps).2 ps / cyy ps (npMean (ps.map Prod.snd)) = 0 := by linarith
      rcases div_eq_zero_iff.1 this with e' | e'
      · exact e'
      · exact absurd e' hz
    · rintro ⟨b, a, hl⟩
      have e := (lineError_zero b a ps).2 hl
      have := C152_best_line h b a
      rw [e] at this
      have e' : lineError (lineFit ps).1 (lineFit ps).2 ps = 0 := le_antisymm this (lineError_nonneg _ _ _)
      rw [e', zero_div, sub_zero]

/-- C152 is false of costs that do not depend on the size at all: a line fits them exactly, and the number printed is NaN. -/
theorem C152_constant_nan {ps : List (K × K)} (h : ps ≠ []) (c : K) (hc : ∀ p ∈ ps, p.2 = c) :
    rSquared ps = .nan ∧ OnLine (lineFit ps).1 (lineFit ps).2 ps := by
  have hl0 : lineError 0 c ps = 0 := (lineError_zero _ _ _).2 (fun p hp => by rw [hc p hp]; ring)
  have hb := C152_best_line h 0 c
  rw [hl0] at hb
  have hfit : lineError (lineFit ps).1 (lineFit ps).2 ps = 0 := le_antisymm hb (lineError_nonneg _ _ _)
  refine ⟨?_, (lineError_zero _ _ _).1 hfit⟩
  have hm : npMean (ps.map Prod.snd) = c := by
    have e1 : ps.map Prod.snd = List.replicate ps.length c := by
      rw [List.eq_replicate_iff]
      refine ⟨List.length_map _, ?_⟩
      intro y hy
      obtain ⟨p, hp, rfl⟩ := List.mem_map.1 hy
      exact hc p hp
    have hl : ((ps.length : Nat) : K) ≠ 0 := by
      have := List.length_pos_of_ne_nil h
      exact_mod_cast this.ne'
    rw [e1]
    unfold npMean
    rw [List.sum_replicate, List.length_replicate, nsmul_eq_mul, mul_comm, mul_div_assoc, div_self hl, mul_one]
  have hz : cyy ps (npMean (ps.map Prod.snd)) = 0 := by rw [cyy_eq h, hm]; exact hl0
  have e : (ps.map (fun p => ((lineFit ps).1 * p.1 + (lineFit ps).2 - p.2) * ((lineFit ps).1 * p.1 + (lineFit ps).2 - p.2))).sum = 0 := by
    rw [← hfit]
    unfold lineError
    congr 1
    exact List.map_congr_left (fun p _ => by ring)
  have e2 : rSquared ps = (XF.fin 1).sub ((XF.fin (ps.map (fun p => ((lineFit ps).1 * p.1 + (lineFit ps).2 - p.2) *
      ((lineFit ps).1 * p.1 + (lineFit ps).2 - p.2))).sum).div (XF.fin (cyy ps (npMean (ps.map Prod.snd))))) := rfl
  rw [e2, e, hz]
  unfold XF.div
  dsimp only
  rw [if_pos rfl]
  unfold XF.signInf
  rw [if_pos rfl]
  rfl

/-- C152: the number is the square of the correlation coefficient of sizes and costs. -/
theorem C152_correlation {ps : List (K × K)} (h : ps ≠ []) (hx : cxx ps (npMean (ps.map Prod.fst)) ≠ 0) (hy : cyy ps (npMean (ps.map Prod.snd)) ≠ 0) :
    rSquared ps = .fin (cxy ps (npMean (ps.map Prod.fst)) (npMean (ps.map Prod.snd)) ^ 2 /
      (cxx ps (npMean (ps.map Prod.fst)) * cyy ps (npMean (ps.map Prod.snd)))) := by
  rw [rSquared_eq ps hy, lineError_means h]
  have e1 : lineFit ps = (if cxx ps (npMean (ps.map Prod.fst)) = 0 then 0 else
      cxy ps (npMean (ps.map Prod.fst)) (npMean (ps.map Prod.snd)) / cxx ps (npMean (ps.map Prod.fst)),
      npMean (ps.map Prod.snd) - (if cxx ps (npMean (ps.map Prod.fst)) = 0 then 0 else
        cxy ps (npMean (ps.map Prod.fst)) (npMean (ps.map Prod.snd)) / cxx ps (npMean (ps.map Prod.fst))) * npMean (ps.map Prod.fst)) := rfl
  rw [e1]
  dsimp only
  rw [if_neg hx]
  generalize cxx ps (npMean (ps.map Prod.fst)) = X at *
  generalize cxy ps (npMean (ps.map Prod.fst)) (npMean (ps.map Prod.snd)) = Y at *
  generalize npMean (ps.map Prod.fst) = mx at *
  generalize npMean (ps.map Prod.snd) = my at *
  generalize cyy ps my = Z at *
  congr 1
  have : (ps.length : K) * (Y / X * mx + (my - Y / X * mx) - my) ^ 2 = 0 := by ring
  rw [this]
  field_simp
  ring

theorem npMean_affine (s t : K) {l : List K} (h : l ≠ []) : npMean (l.map (fun x => s * x + t)) = s * npMean l + t := by
  have hl : (l.length : K) ≠ 0 := by
    have := List.length_pos_of_ne_nil h
    exact_mod_cast this.ne'
  have e : ∀ m : List K, (m.map (fun x => s * x + t)).sum = s * m.sum + (m.length : K) * t := by
    intro m
    induction m with
    | nil => simp
    | cons a m ih =>
      rw [List.map_cons, List.sum_cons, ih, List.sum_cons, List.length_cons]
      push_cast
      ring
  unfold npMean
  rw [e, List.length_map]
  field_simp

/-- C152: the number does not depend on the units in which sizes and costs are measured, nor on where their zero is; for the logarithmic fit the
choice of the base is such a change. -/
theorem C152_units (s t u v : K) (hs : s ≠ 0) (hu : u ≠ 0) {ps : List (K × K)} (h : ps ≠ [])
    (hx : cxx ps (npMean (ps.map Prod.fst)) ≠ 0) (hy : cyy ps (npMean (ps.map Prod.snd)) ≠ 0) :
    rSquared (ps.map (fun p => (s * p.1 + t, u * p.2 + v))) = rSquared ps := by
  have h' : ps.map (fun p => (s * p.1 + t, u * p.2 + v)) ≠ [] := by simpa using h
  have m1 : npMean ((ps.map (fun p => (s * p.1 + t, u * p.2 + v))).map Prod.fst) = s * npMean (ps.map Prod.fst) + t := by
    rw [← npMean_affine s t (by simpa using h), List.map_map, List.map_map]
    rfl
  have m2 : npMean ((ps.map (fun p => (s * p.1 + t, u * p.2 + v))).map Prod.snd) = u * npMean (ps.map Prod.snd) + v := by
    rw [← npMean_affine u v (by simpa using h), List.map_map, List.map_map]
    rfl
  have sumMul : ∀ (k : K) (f : K × K → K) (l : List (K × K)), (l.map (fun p => k * f p)).sum = k * (l.map f).sum := by
    intro k f l
    induction l with
    | nil => simp
    | cons a l ih => rw [List.map_cons, List.sum_cons, ih, List.map_cons, List.sum_cons]; ring
  have cx : ∀ mx : K, cxx (ps.map (fun p => (s * p.1 + t, u * p.2 + v))) (s * mx + t) = s ^ 2 * cxx ps mx := by
    intro mx
    unfold cxx
    rw [← sumMul, List.map_map]
    congr 1
    exact List.map_congr_left (fun p _ => by show (s * p.1 + t - (s * mx + t)) * (s * p.1 + t - (s * mx + t)) = _; ring)
  have cy : ∀ my : K, cyy (ps.map (fun p => (s * p.1 + t, u * p.2 + v))) (u * my + v) = u ^ 2 * cyy ps my := by
    intro my
    unfold cyy
    rw [← sumMul, List.map_map]
    congr 1
    exact List.map_congr_left (fun p _ => by show (u * my + v - (u * p.2 + v)) * (u * my + v - (u * p.2 + v)) = _; ring)
  have cz : ∀ mx my : K, cxy (ps.map (fun p => (s * p.1 + t, u * p.2 + v))) (s * mx + t) (u * my + v) = s * u * cxy ps mx my := by
    intro mx my
    unfold cxy
    rw [← sumMul, List.map_map]
    congr 1
    exact List.map_congr_left (fun p _ => by show (s * p.1 + t - (s * mx + t)) * (u * p.2 + v - (u * my + v)) = _; ring)
  rw [C152_correlation h hx hy, C152_correlation h' (by rw [m1, cx]; exact mul_ne_zero (pow_ne_zero 2 hs) hx)
    (by rw [m2, cy]; exact mul_ne_zero (pow_ne_zero 2 hu) hy), m1, m2, cx, cy, cz]
  congr 1
  field_simp

/-! ## The points -/

/-- C152: the points of the plot are the entries of the dictionary, each once, in the order of the sizes. -/
theorem C152_points (dict : List (Nat × K)) (hd : (dict.map Prod.fst).Nodup) :
    (plotPoints dict).Perm (dict.map (fun e => ((e.1 : K), e.2))) ∧ (plotPoints dict).Pairwise (fun p q => p.1 < q.1) := by
  have hperm : ((dict.map Prod.fst).insertionSort (· ≤ ·)).Perm (dict.map Prod.fst) := List.perm_insertionSort _ _
  have hlook : ∀ (l : List (Nat × K)), (l.map Prod.fst).Nodup → ∀ e ∈ l, l.lookup e.1 = some e.2 := by
    intro l
    induction l with
    | nil => intro _ e he; cases he
    | cons a l ih =>
      intro hn e he
      rw [List.map_cons, List.nodup_cons] at hn
      rcases List.mem_cons.1 he with rfl | he
      · rw [List.lookup_cons, beq_self_eq_true]
      · rw [List.lookup_cons, beq_eq_false_iff_ne.2 (fun c : e.1 = a.1 => hn.1 (by rw [← c]; exact List.mem_map_of_mem he))]
        exact ih hn.2 e he
  constructor
  · refine (hperm.filterMap _).trans ?_
    rw [List.filterMap_map]
    have : dict.filterMap ((fun k : Nat => (dict.lookup k).map (fun c => ((k : K), c))) ∘ Prod.fst) =
        dict.filterMap (fun e => some ((e.1 : K), e.2)) := by
      refine List.filterMap_congr ?_
      intro e he
      show (dict.lookup e.1).map _ = _
      rw [hlook dict hd e he]
      rfl
    rw [this, List.filterMap_eq_map']
  · have hs : ((dict.map Prod.fst).insertionSort (· ≤ ·)).Pairwise (fun a b => a ≤ b) := by
      exact List.pairwise_insertionSort _ _
    have hn : ((dict.map Prod.fst).insertionSort (· ≤ ·)).Nodup := hperm.nodup_iff.2 hd
    have hlt : ((dict.map Prod.fst).insertionSort (· ≤ ·)).Pairwise (fun a b => a < b) :=
      (hs.and hn).imp (fun h => lt_of_le_of_ne h.1 h.2)
    unfold plotPoints
    rw [List.pairwise_filterMap]
    refine hlt.imp ?_
    intro a b hab p hp q hq
    obtain ⟨c, _, rfl⟩ := Option.map_eq_some_iff.1 hp
    obtain ⟨c', _, rfl⟩ := Option.map_eq_some_iff.1 hq
    show (a : K) < (b : K)
    exact_mod_cast hab

/-! ## The cost of a classifier -/

theorem cmpMeasure_queries {c : Cmp K} {w : World K G} {f : Forest K G} {s : CmpSide K} (h : cmpMeasure c w f = .ok s) : s.queries = f.numQueries := by
  unfold cmpMeasure at h
  cases h1 : f.predictBatch c.data with
  | error e => rw [h1] at h; cases h
  | ok q =>
    obtain ⟨ps, f1⟩ := q
    rw [h1] at h
    dsimp only at h
    cases h2 : cmpScore c.kind.isCls ps (w.arrays.getD c.ref []) with
    | error e => rw [h2] at h; cases h
    | ok tr =>
      rw [h2] at h
      dsimp only at h
      by_cases hp : c.predict = true
      · rw [if_pos hp] at h
        cases h3 : f1.predictBatch c.testData with
        | error e => rw [h3] at h; cases h
        | ok q =>
          obtain ⟨ps2, f2⟩ := q
          rw [h3] at h
          dsimp only at h
          cases h4 : cmpScore c.kind.isCls ps2 (w.arrays.getD c.testRef []) with
          | error e => rw [h4] at h; cases h
          | ok te =>
            rw [h4] at h
            dsimp only at h
            cases h
            rfl
      · rw [if_neg hp] at h
        cases h
        rfl

variable {R : Rng K G}

/-- What one of the classifiers of the scaling experiment costs. -/
theorem histC_cost {mem : Bool → Nat → Nat → Junk K} {c : Cmp K} (hk : c.kind = .histC) (ha : c.args = runtimeArgs .histC) {seed : Nat}
    {w w' : World K G} {row : CmpRow K} (h : cmpRound R mem c seed w = .ok (row, w')) :
    row.ours.queries ≤ 5 * (31 * ((c.data.getD 0 []).length * 1000)) := by
  obtain ⟨o, t, o', w1, w2, w3, h1, h2, h3, h4, _, _⟩ := cmpRound_parts h
  rw [cmpMeasure_queries h4]
  have hinit : ∃ w1', Forest.init R w (Wrapper.cfg .histC (c.side .mab seed)) none (some c.data) (some c.ref) (c.side .mab seed).budget =
      .ok (o.forest, w1') := by
    rw [hk] at h1
    unfold Wrapper.init at h1
    rw [if_neg (by intro hc; cases hc.1), if_neg (by intro hc; cases hc.1), if_neg (by intro hc; cases hc)] at h1
    unfold Wrapper.super at h1
    rw [if_neg (by intro hc; cases hc.2)] at h1
    cases h5 : Forest.init R w (Wrapper.cfg .histC (c.side .mab seed)) none (some c.data) (some c.ref) (c.side .mab seed).budget with
    | error e => rw [h5] at h1; cases h1
    | ok q =>
      obtain ⟨f, w1'⟩ := q
      rw [h5] at h1
      cases h1
      exact ⟨_, rfl⟩
  obtain ⟨w1', hinit⟩ := hinit
  obtain ⟨_, _, hq, _, _, _, _, hdat, _, _⟩ := Forest_init_fields hinit
  have hfit : ∃ wf, Forest.fit R (mem true) o.forest w2 none none = .ok (o'.forest, wf) := by
    unfold WrapObj.fit at h3
    cases h6 : Forest.fit R (mem true) o.forest w2 none none with
    | error e => rw [h6] at h3; cases h3
    | ok q =>
      obtain ⟨f, wf⟩ := q
      rw [h6] at h3
      cases h3
      exact ⟨_, rfl⟩
  obtain ⟨wf, hfit⟩ := hfit
  have key := C136_forest R (mem true) (Wrapper.cfg .histC (c.side .mab seed)) (c.side .mab seed).budget o.forest o'.forest w2 wf none none
    (.new hinit) hfit rfl rfl rfl (fun _ => by
      show (if Wrapper.binType .histC = .identity then none else c.args.numBins) ≠ some 1
      rw [ha]
      exact fun e => absurd (Option.some.inj e) (by decide)) (le_refl _) (le_refl _) 5 (by
      show c.args.maxDepth = .some 5
      rw [ha]
      rfl)
  have ht : trainData o.forest none = c.data := by
    unfold trainData
    rw [hdat]
    rfl
  rw [ht, hq, zero_add] at key
  have hn : (Wrapper.cfg .histC (c.side .mab seed)).nEstimators = 5 := by
    show c.args.nEstimators = 5
    rw [ha]
    rfl
  have hb : (Wrapper.cfg .histC (c.side .mab seed)).batch = 1000 := rfl
  rw [hn, hb] at key
  exact key

/-- One trial of the scaling experiment. -/
theorem scalingTrial_cost {mem : Nat → Bool → Nat → Nat → Junk K} {data : List (List K)} {labels : List K} {size seed : Nat} {w w' : World K G} {x : K}
    {F : Nat} (hrect : ∀ row ∈ data, row.length = F) (h : scalingTrial R mem .histC data labels size seed w = .ok (x, w')) :
    0 ≤ x ∧ x ≤ ((5 * (31 * (F * 1000)) : Nat) : K) := by
  unfold scalingTrial at h
  cases h1 : rngChoiceRep R (R.seed seed) (data.zip labels) ([], 0) size with
  | error e => rw [h1] at h; cases h
  | ok q =>
    obtain ⟨rows, g⟩ := q
    rw [h1] at h
    dsimp only at h
    generalize hc : (⟨.histC, runtimeArgs .histC, rows.map Prod.fst, w.arrays.length, [], 0, false, false⟩ : Cmp K) = c at h
    generalize (⟨{ w.glob with np := R.seed seed }, w.arrays ++ [rows.map Prod.snd]⟩ : World K G) = w0 at h
    cases h2 : compareModels R mem c 1 w0 with
    | error e => rw [h2] at h; cases h
    | ok q =>
      obtain ⟨r, w2⟩ := q
      rw [h2] at h
      dsimp only at h
      cases h
      have hrow : ∃ row w4, cmpRound R (mem 0) c 0 w0 = .ok (row, w4) ∧ r.rows = [row] := by
        unfold compareModels cmpRounds at h2
        show ∃ row w4, cmpRound R (mem 0) c 0 w0 = .ok (row, w4) ∧ r.rows = [row]
        rw [show List.range 1 = [0] from rfl] at h2
        dsimp only at h2
        cases h3 : cmpRound R (mem 0) c 0 w0 with
        | error e => rw [h3] at h2; cases h2
        | ok q =>
          obtain ⟨row, w4⟩ := q
          rw [h3] at h2
          dsimp only at h2
          unfold cmpRounds at h2
          dsimp only at h2
          rw [if_neg (by simp), if_neg (by rw [← hc]; simp)] at h2
          cases h2
          exact ⟨row, _, rfl, rfl⟩
      obtain ⟨row, w4, h3, h4⟩ := hrow
      have hcost := histC_cost (by rw [← hc]) (by rw [← hc]) h3
      have hF : (c.data.getD 0 []).length ≤ F := by
        rw [← hc]
        show ((rows.map Prod.fst).getD 0 []).length ≤ F
        cases rows with
        | nil => simp
        | cons a rest =>
          show a.1.length ≤ F
          unfold rngChoiceRep at h1
          by_cases hpos : 0 < (data.zip labels).length
          · rw [if_pos hpos] at h1
            have e := congrArg Prod.fst (Except.ok.inj h1)
            dsimp only at e
            have hmem : a ∈ ((R.choiceRep (R.seed seed) (data.zip labels).length size).1.map (fun i => (data.zip labels).getD i ([], 0))) := by
              rw [e]
              exact List.mem_cons_self
            obtain ⟨i, hi, rfl⟩ := List.mem_map.1 hmem
            have hlt := R.choiceRep_lt _ _ _ hpos i hi
            rw [List.getD_eq_getElem _ _ hlt]
            exact (hrect _ (List.of_mem_zip (List.getElem_mem hlt)).1).le
          · rw [if_neg hpos] at h1
            cases h1
      rw [h4]
      unfold ourQueries npMean
      simp only [List.map_cons, List.map_nil, List.sum_cons, List.sum_nil, List.length_cons, List.length_nil, Nat.cast_one, add_zero, zero_add, div_one]
      refine ⟨Nat.cast_nonneg _, ?_⟩
      have : row.ours.queries ≤ 5 * (31 * (F * 1000)) := hcost.trans (by
        exact Nat.mul_le_mul_left _ (Nat.mul_le_mul_left _ (Nat.mul_le_mul_right _ hF)))
      exact_mod_cast this

theorem scalingTrials_cost {mem : Nat → Nat → Bool → Nat → Nat → Junk K} {data : List (List K)} {labels : List K} {size : Nat} {F : Nat}
    (hrect : ∀ row ∈ data, row.length = F) : ∀ (seeds : List Nat) {acc x : K} {w w' : World K G},
    scalingTrials R mem .histC data labels size seeds acc w = .ok (x, w') →
      acc ≤ x ∧ x ≤ acc + (seeds.length : K) * ((5 * (31 * (F * 1000)) : Nat) : K)
  | [], acc, x, w, w', h => by
    unfold scalingTrials at h
    cases h
    simp
  | seed :: seeds, acc, x, w, w', h => by
    unfold scalingTrials at h
    cases h1 : scalingTrial R (mem seed) .histC data labels size seed w with
    | error e => rw [h1] at h; cases h
    | ok q =>
      obtain ⟨y, w1⟩ := q
      rw [h1] at h
      dsimp only at h
      obtain ⟨a1, a2⟩ := scalingTrial_cost hrect h1
      obtain ⟨b1, b2⟩ := scalingTrials_cost hrect seeds h
      rw [List.length_cons]
      push_cast at a2 b2 ⊢
      constructor
      · linarith
      · linarith

/-- C152: the costs in the plot of the classifier are bounded by a number that depends on the number of columns only: however large the samples
are, the cost recorded for a size is at most five trees, times 31 nodes, times a batch of 1000 rows, times the number of columns. -/
theorem C152_classifier_flat (mem : Nat → Nat → Nat → Bool → Nat → Nat → Junk K) (data : List (List K)) (labels : List K) (F numSeeds : Nat)
    (hrect : ∀ row ∈ data, row.length = F) (hs : 0 < numSeeds) : ∀ (sizes : List Nat) (w w' : World K G) (dict : List (Nat × K)),
    scalingExp R mem .histC data labels numSeeds sizes w = .ok (dict, w') →
      dict.map Prod.fst = sizes ∧ ∀ e ∈ dict, 0 ≤ e.2 ∧ e.2 ≤ ((155000 * F : Nat) : K)
  | [], w, w', dict, h => by
    unfold scalingExp at h
    cases h
    exact ⟨rfl, fun e he => by cases he⟩
  | size :: sizes, w, w', dict, h => by
    unfold scalingExp at h
    cases h1 : scalingTrials R (mem size) .histC data labels size (List.range numSeeds) 0 w with
    | error e => rw [h1] at h; cases h
    | ok q =>
      obtain ⟨x, w1⟩ := q
      rw [h1] at h
      dsimp only at h
      cases h2 : scalingExp R mem .histC data labels numSeeds sizes w1 with
      | error e => rw [h2] at h; cases h
      | ok q =>
        obtain ⟨rest, w2⟩ := q
        rw [h2] at h
        dsimp only at h
        cases h
        obtain ⟨i1, i2⟩ := C152_classifier_flat mem data labels F numSeeds hrect hs sizes w1 w' rest h2
        obtain ⟨a1, a2⟩ := scalingTrials_cost hrect (List.range numSeeds) h1
        rw [List.length_range, zero_add] at a2
        have hn : (0 : K) < numSeeds := by exact_mod_cast hs
        refine ⟨by rw [List.map_cons, i1], ?_⟩
        intro e he
        rcases List.mem_cons.1 he with rfl | he
        · refine ⟨div_nonneg a1 hn.le, (div_le_iff₀ hn).2 ?_⟩
          push_cast at a2 ⊢
          linarith
        · exact i2 e he

theorem scalingTrials_sum {mem : Nat → Nat → Bool → Nat → Nat → Junk K} {kind : Wrapper} {data : List (List K)} {labels : List K} {size : Nat} :
    ∀ (seeds : List Nat) {acc x : K} {w w' : World K G}, scalingTrials R mem kind data labels size seeds acc w = .ok (x, w') →
      ∃ ys : List K, x = acc + ys.sum ∧
        List.Forall₂ (fun (seed : Nat) (y : K) => ∃ u u' : World K G, scalingTrial R (mem seed) kind data labels size seed u = .ok (y, u')) seeds ys
  | [], acc, x, w, w', h => by
    unfold scalingTrials at h
    cases h
    exact ⟨[], by simp, .nil⟩
  | seed :: seeds, acc, x, w, w', h => by
    unfold scalingTrials at h
    cases h1 : scalingTrial R (mem seed) kind data labels size seed w with
    | error e => rw [h1] at h; cases h
    | ok q =>
      obtain ⟨y, w1⟩ := q
      rw [h1] at h
      dsimp only at h
      obtain ⟨ys, e1, e2⟩ := scalingTrials_sum seeds h
      exact ⟨y :: ys, by rw [e1, List.sum_cons, add_assoc], .cons ⟨w, w1, h1⟩ e2⟩

/-- C152: the cost recorded for a size is the mean of the costs of the trials with that size, one for each seed. -/
theorem C152_mean (mem : Nat → Nat → Nat → Bool → Nat → Nat → Junk K) (kind : Wrapper) (data : List (List K)) (labels : List K) (numSeeds : Nat) :
    ∀ (sizes : List Nat) (w w' : World K G) (dict : List (Nat × K)), scalingExp R mem kind data labels numSeeds sizes w = .ok (dict, w') →
      List.Forall₂ (fun (size : Nat) (e : Nat × K) => e.1 = size ∧ ∃ ys : List K, e.2 = npMean ys ∧
        List.Forall₂ (fun (seed : Nat) (y : K) => ∃ u u' : World K G, scalingTrial R (mem size seed) kind data labels size seed u = .ok (y, u'))
          (List.range numSeeds) ys) sizes dict
  | [], w, w', dict, h => by
    unfold scalingExp at h
    cases h
    exact .nil
  | size :: sizes, w, w', dict, h => by
    unfold scalingExp at h
    cases h1 : scalingTrials R (mem size) kind data labels size (List.range numSeeds) 0 w with
    | error e => rw [h1] at h; cases h
    | ok q =>
      obtain ⟨x, w1⟩ := q
      rw [h1] at h
      dsimp only at h
      cases h2 : scalingExp R mem kind data labels numSeeds sizes w1 with
      | error e => rw [h2] at h; cases h
      | ok q =>
        obtain ⟨rest, w2⟩ := q
        rw [h2] at h
        dsimp only at h
        cases h
        obtain ⟨ys, e1, e2⟩ := scalingTrials_sum (List.range numSeeds) h1
        refine .cons ⟨rfl, ys, ?_, e2⟩ (C152_mean mem kind data labels numSeeds sizes w1 w' rest h2)
        have hl := e2.length_eq
        rw [List.length_range] at hl
        unfold npMean
        rw [← hl, e1, zero_add]

/-! ## Examples -/

/-- A line, a parabola and a constant. -/
example : rSquared [((1 : ℚ), 3), (2, 5), (4, 9)] = .fin 1 ∧ rSquared [((1 : ℚ), 1), (2, 4), (3, 9)] = .fin (48 / 49) ∧
    rSquared [((1 : ℚ), 7), (2, 7), (3, 7)] = .nan := by decide +kernel

/-- The dictionary is sorted. -/
example : plotPoints [(30, (5 : ℚ)), (10, 6), (20, 7)] = [(10, 6), (20, 7), (30, 5)] := by decide +kernel

/-- A run of the experiment with two sizes. -/
example : ((scalingExp rngQ (fun _ _ _ _ => exMems) .histC exData [1, 0, 1, 1, 0, 0] 2 [3, 6] exWorld).toOption).map
    (fun q => (q.1.length, q.1.map Prod.fst)) = some (2, [3, 6]) := by decide +kernel

end FF
