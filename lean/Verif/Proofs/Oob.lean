import Verif.Proofs.ForestPredict

/-!
# Sums over the out-of-bag trees
-/

namespace FF

open Spec

set_option linter.unusedSectionVars false

variable {K : Type} [Field K] [LinearOrder K] [IsStrictOrderedRing K] [FloorRing K] [NpFun K] {G : Type}

/-- The answer of a tree as a vector: the class probabilities, or the regression value alone. -/
def ansVec (t : Tree K G) (x : List K) : List K :=
  match t.predict x with
  | .ok (p, _) => p.vec
  | .error _ => []

theorem addIdcs_get {α : Type} (add : α → α → α) (a : List α) (idcs : List Nat) (g : Nat → α) (hn : idcs.Nodup) (r : Nat) :
    (addIdcs add a idcs (idcs.map g))[r]? = if r ∈ idcs then (a[r]?).map (fun x => add x (g r)) else a[r]? := by
  unfold addIdcs
  induction idcs generalizing a with
  | nil => simp
  | cons i is ih =>
    rw [List.nodup_cons] at hn
    rw [List.map_cons, List.zip_cons_cons, List.foldl_cons, ih _ hn.2, List.getElem?_modify]
    by_cases hr : r = i
    · subst hr
      rw [if_neg hn.1, if_pos List.mem_cons_self]
      simp
    · have h1 : (r ∈ i :: is) ↔ r ∈ is := by simp [hr]
      have h2 : i ≠ r := fun h => hr h.symm
      simp only [h1, if_neg h2]
      simp

theorem addIdcs_length {α : Type} (add : α → α → α) (a : List α) (idcs : List Nat) (vals : List α) :
    (addIdcs add a idcs vals).length = a.length := by
  unfold addIdcs
  induction idcs generalizing a vals with
  | nil => simp
  | cons i is ih =>
    cases vals with
    | nil => simp
    | cons v vs => rw [List.zip_cons_cons, List.foldl_cons, ih]; simp

/-- What the loop of `get_oob_score` adds up. -/
theorem oobLoop_spec {data : List (List K)} {ol : List (List Nat)} {i : Nat} {ts ts' : List (Tree K G)} {s s' : List (List K)} {c c' : List Nat}
    (hn : ∀ k < ts.length, ∀ idcs, ol[i + k]? = some idcs → idcs.Nodup)
    (hb : ∀ t ∈ ts, ∀ xs ps t', t.predictBatch xs = .ok (ps, t') → List.Forall₂ (fun x p => (t.predict x).map Prod.fst = .ok p) xs ps)
    (h : oobLoop data ol i ts s c = .ok (s', c', ts')) :
    s'.length = s.length ∧ c'.length = c.length ∧
    (∀ p ∈ ts.zip (ol.drop i), ∀ r ∈ p.2, ∃ q t', p.1.predict (data.getD r []) = .ok (q, t')) ∧
    ∀ r, c'[r]? = (c[r]?).map (fun n => n + ((ts.zip (ol.drop i)).filter (fun p => decide (r ∈ p.2))).length) ∧
      s'[r]? = (s[r]?).map (fun v => (((ts.zip (ol.drop i)).filter (fun p => decide (r ∈ p.2))).map
        (fun p => ansVec p.1 (data.getD r []))).foldl (List.zipWith (· + ·)) v) := by
  induction ts generalizing i s c ts' with
  | nil =>
    cases h
    simp
  | cons t ts ih =>
    unfold oobLoop at h
    cases hi : ol[i]? with
    | none => rw [hi] at h; cases h
    | some idcs =>
      rw [hi] at h
      simp only [] at h
      cases hp : takeE data [] idcs with
      | error e => rw [hp] at h; cases h
      | ok pts =>
        rw [hp] at h
        simp only [] at h
        cases hbt : t.predictBatch pts with
        | error e => rw [hbt] at h; cases h
        | ok q =>
          obtain ⟨ps, t1⟩ := q
          rw [hbt] at h
          simp only [] at h
          split_ifs at h with hany
          cases hl : oobLoop data ol (i + 1) ts (addIdcs (List.zipWith (· + ·)) s idcs (ps.map Pred.vec))
              (addIdcs (· + ·) c idcs (idcs.map (fun _ => 1))) with
          | error e => rw [hl] at h; cases h
          | ok q =>
            obtain ⟨s2, c2, ts2⟩ := q
            rw [hl] at h
            cases h
            obtain ⟨e1, e2, e3, e4⟩ := ih (fun k hk idcs hk' => hn (k + 1) (by simpa using hk) idcs (by
              rw [← hk']; congr 1; omega)) (fun t ht => hb t (List.mem_cons_of_mem _ ht)) hl
            rw [addIdcs_length] at e1 e2
            have hdrop : ol.drop i = idcs :: ol.drop (i + 1) := by
              obtain ⟨hlt, rfl⟩ := List.getElem?_eq_some_iff.1 hi
              exact List.drop_eq_getElem_cons hlt
            have hnd := hn 0 (by simp) idcs hi
            have hpts := (takeE_ok hp).1
            have hfa := hb t List.mem_cons_self pts ps t1 hbt
            rw [hpts] at hfa
            have hvals : ps.map Pred.vec = idcs.map (fun r => ansVec t (data.getD r [])) := by
              clear hl e1 e2 e3 e4 hbt hp hpts hany hdrop hi hnd
              induction idcs generalizing ps with
              | nil => cases hfa; rfl
              | cons r rs ih2 =>
                rw [List.map_cons] at hfa
                cases hfa with
                | cons h1 h2 =>
                  rename_i p ps'
                  rw [List.map_cons, List.map_cons, ih2 _ h2]
                  congr 1
                  unfold ansVec
                  cases hpr : t.predict (data.getD r []) with
                  | error e => rw [hpr] at h1; cases h1
                  | ok q => rw [hpr] at h1; cases h1; rfl
            have hok : ∀ r ∈ idcs, ∃ q t', t.predict (data.getD r []) = .ok (q, t') := by
              intro r hr
              obtain ⟨k, hk, rfl⟩ := List.mem_iff_getElem.1 hr
              obtain ⟨g1, g2⟩ := List.forall₂_iff_get.1 hfa
              have := g2 k (by simpa using hk) (by rw [← g1]; simpa using hk)
              simp only [List.get_eq_getElem, List.getElem_map] at this
              cases hpr : t.predict (data.getD idcs[k] []) with
              | error e => rw [hpr] at this; cases this
              | ok q => exact ⟨q.1, q.2, rfl⟩
            refine ⟨e1, e2, ?_, ?_⟩
            · intro p hp' r hr
              rw [hdrop, List.zip_cons_cons] at hp'
              rcases List.mem_cons.1 hp' with rfl | hp'
              · exact hok r hr
              · exact e3 p hp' r hr
            · intro r
              obtain ⟨f1, f2⟩ := e4 r
              rw [hdrop, List.zip_cons_cons]
              rw [f1, f2, hvals, addIdcs_get _ _ _ _ hnd, addIdcs_get _ _ _ _ hnd]
              by_cases hr : r ∈ idcs
              · rw [if_pos hr, if_pos hr, List.filter_cons_of_pos (by simpa using hr)]
                refine ⟨?_, ?_⟩
                · rw [Option.map_map]
                  congr 1
                  funext n
                  simp only [Function.comp, List.length_cons]
                  omega
                · rw [Option.map_map]
                  rfl
              · rw [if_neg hr, if_neg hr, List.filter_cons_of_neg (by simpa using hr)]
                exact ⟨rfl, rfl⟩

theorem foldl_vec {n : Nat} (qs : List (List K)) (v : List K) (hv : v.length = n) (hq : ∀ q ∈ qs, q.length = n) :
    (qs.foldl (List.zipWith (· + ·)) v).length = n ∧
    ∀ c < n, (qs.foldl (List.zipWith (· + ·)) v).getD c 0 = v.getD c 0 + (qs.map (fun q => q.getD c 0)).sum := by
  induction qs generalizing v with
  | nil => exact ⟨hv, fun c _ => by simp⟩
  | cons q qs ih =>
    have hql := hq q List.mem_cons_self
    obtain ⟨h1, h2⟩ := ih (List.zipWith (· + ·) v q) (by rw [List.length_zipWith, hv, hql, min_self])
      (fun q hq' => hq q (List.mem_cons_of_mem _ hq'))
    refine ⟨h1, fun c hc => ?_⟩
    rw [List.foldl_cons, h2 c hc, List.map_cons, List.sum_cons, List.getD_eq_getElem _ _ (by rw [List.length_zipWith]; omega),
      List.getElem_zipWith, List.getD_eq_getElem _ _ (by omega), List.getD_eq_getElem _ _ (by omega)]
    ring

/-! ### The lists of out-of-bag rows -/

theorem ForestRun.oob {R : Rng K G} {mem : Nat → Nat → Junk K} {data : List (List K)} {F : Nat} {is : List Nat} {f f' : Forest K G}
    {w w' : World K G} {l : List (Made K G × Tree K G)} (h : ForestRun R mem data F is f w l f' w') (hb : f.cfg.bootstrap = true)
    (ho : f.cfg.oobScore = true) {ol : List (List Nat)} (hol : f.oobList = some ol) :
    ∃ ol' extra, f'.oobList = some ol' ∧ ol' = ol ++ l.map (fun p => getOutOfBag p.1.args.rows data.length) ++ extra := by
  induction h generalizing ol with
  | done => exact ⟨ol, [], hol, by simp⟩
  | stop _ _ g o ho' =>
    rcases ho' with rfl | ⟨x, rfl⟩
    · exact ⟨ol, [], hol, by simp⟩
    · exact ⟨ol ++ [x], [x], by simp [hol], by simp⟩
  | keep hk _ ih =>
    obtain ⟨_, _, c3, _⟩ := hk.next_cfg
    obtain ⟨ol', extra, e1, e2⟩ := ih (by rw [c3]; exact hb) (by rw [c3]; exact ho)
      (ol := ol ++ [getOutOfBag _ _]) (by rw [hk.next]; simp only []; rw [if_pos ⟨hb, ho⟩, hol]; rfl)
    exact ⟨ol', extra, e1, by rw [e2]; simp⟩

theorem getOutOfBag_nodup (rows : List Nat) (n : Nat) : (getOutOfBag rows n).Nodup :=
  List.Nodup.filter _ List.nodup_range

theorem mem_getOutOfBag {rows : List Nat} {n i : Nat} : i ∈ getOutOfBag rows n ↔ i < n ∧ i ∉ rows := by
  unfold getOutOfBag
  simp

end FF
