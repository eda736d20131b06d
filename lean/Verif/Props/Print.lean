import Verif.Spec.Outline
import Verif.Props.Predict

/-!
# C106: the printed tree says what the tree predicts
-/

namespace FF

open Spec

set_option linter.unusedSectionVars false

variable {K : Type} [Field K] [LinearOrder K] [IsStrictOrderedRing K] [FloorRing K] [NpFun K] {G : Type}

theorem argmaxGo_map {φ : K → K} (hφ : StrictMono φ) (xs : List K) (i bi : Nat) (b : K) :
    argmaxGo (xs.map φ) i bi (φ b) = argmaxGo xs i bi b := by
  induction xs generalizing i bi b with
  | nil => rfl
  | cons x xs ih =>
    simp only [List.map_cons, argmaxGo, hφ.lt_iff_lt, ih]

theorem npArgmax_map {φ : K → K} (hφ : StrictMono φ) (xs : List K) : npArgmax (xs.map φ) = npArgmax xs := by
  cases xs with
  | nil => rfl
  | cons x xs => simp only [List.map_cons, npArgmax, argmaxGo_map hφ]

/-- The line of a leaf shows what the leaf answers. -/
theorem leafLine_of_pred {t : Tree K G} {nd : Node K} {p : Pred K} (h : nodePred t.cfg nd = .ok p) :
    leafLine t nd = .ok (if t.cfg.isCls then .cls nd.depth p.answer else .value nd.depth p.answer) := by
  unfold nodePred at h
  unfold leafLine
  cases hc : t.cfg.isCls with
  | true =>
    rw [hc, if_pos rfl] at h
    rw [if_pos rfl, if_pos rfl]
    by_cases hs : nd.counts.sum = 0
    · rw [if_pos hs] at h; cases h
    rw [if_neg hs] at h
    have hpos : (0 : K) < ((nd.counts.sum : Nat) : K) := by exact_mod_cast Nat.pos_of_ne_zero hs
    have hm : StrictMono (fun a : K => a / ((nd.counts.sum : Nat) : K)) := fun a b hab => by
      dsimp only
      gcongr
    have e := npArgmax_map hm (nd.counts.map (fun (c : Nat) => (c : K)))
    rw [List.map_map] at e
    rw [← e]
    cases ha : npArgmax (nd.counts.map (fun (c : Nat) => (c : K) / ((nd.counts.sum : Nat) : K))) with
    | none => rw [ha] at h; cases h
    | some i =>
      rw [ha] at h
      have ha' : npArgmax (nd.counts.map ((fun a : K => a / ((nd.counts.sum : Nat) : K)) ∘ (fun (c : Nat) => (c : K)))) = some i := ha
      rw [ha']
      dsimp only at h ⊢
      cases hi : idxToClass t.cfg.classes i with
      | none => rw [hi] at h; cases h
      | some l =>
        rw [hi] at h
        cases h
        rfl
  | false =>
    rw [hc, if_neg (by simp)] at h
    rw [if_neg (by simp), if_neg (by simp)]
    cases hl : nd.labels with
    | none => rw [hl] at h; cases h
    | some ls =>
      rw [hl] at h
      cases ls with
      | nil => cases h
      | cons y ys => cases h; rfl

theorem Outline.depth_le {d : Nat} {ls : List (Line K)} (h : Outline d ls) : ∀ l ∈ ls, d ≤ l.depth := by
  induction h with
  | cls d c => intro l hl; rw [List.mem_singleton.1 hl]; exact le_rfl
  | value d v => intro l hl; rw [List.mem_singleton.1 hl]; exact le_rfl
  | node d f v _ _ ih1 ih2 =>
    intro l hl
    rcases List.mem_append.1 hl with hl | hl
    · rcases List.mem_cons.1 hl with rfl | hl
      · exact le_rfl
      · have := ih1 l hl; omega
    · rcases List.mem_cons.1 hl with rfl | hl
      · exact le_rfl
      · have := ih2 l hl; omega

theorem follow_skip (x : List K) {k : Nat} (ls rest : List (Line K)) (h : ∀ l ∈ ls, k < l.depth) :
    follow x (some k) (ls ++ rest) = follow x (some k) rest := by
  induction ls with
  | nil => rfl
  | cons l ls ih =>
    have h1 := h l List.mem_cons_self
    have h2 := ih (fun l' hl' => h l' (List.mem_cons_of_mem _ hl'))
    rw [List.cons_append, ← h2]
    conv_lhs => unfold follow
    rw [if_neg (by omega)]

/-- What the subtree of node `id` answers for `x`. -/
def answerFrom (t : Tree K G) (x : List K) (fuel id : Nat) : Option K :=
  match walk t.nodes x fuel id with
  | .error _ => none
  | .ok leaf =>
    match t.nodes[leaf]? with
    | none => none
    | some nd => (nodePred t.cfg nd).toOption.map Pred.answer

section
variable {R : Rng K G} {mem : Nat → Junk K} {A : TreeArgs K} {t : Tree K G} {dd : DiscDict K} {t0 : Tree K G}

theorem GrowFacts.rows_ne (h : GrowFacts R mem A dd t0 t) (hrows : A.rows ≠ []) {id : Nat} {nd : Node K} (hn : t.nodes[id]? = some nd) :
    nd.idcs ≠ [] := by
  rcases Nat.eq_zero_or_pos id with rfl | hid
  · obtain ⟨r, h1, h2, _⟩ := h.shape.root
    obtain rfl := Option.some.inj (h1.symm.trans hn)
    rw [h2]; exact hrows
  · obtain ⟨p, np, _, hp, hc⟩ := h.shape.parents id hid (nodeAt_lt hn)
    rcases h.shape.links _ _ hp with ⟨h1, h2⟩ | ⟨l, r, nl, nr, h1, h2, _, _, _, h6, h7, h8⟩
    · rw [h1, h2] at hc
      rcases hc with hc | hc <;> cases hc
    · rcases hc with hc | hc
      · rw [h1] at hc; cases hc
        obtain rfl := Option.some.inj (h6.symm.trans hn)
        exact h8.left_ne
      · rw [h2] at hc; cases hc
        obtain rfl := Option.some.inj (h7.symm.trans hn)
        exact h8.right_ne

theorem GrowFacts.print (h : GrowFacts R mem A dd t0 t) (hd : A.cfg.isCls = true → ClassesOK A.cfg.classes) (hrows : A.rows ≠ []) :
    ∀ (fuel id : Nat) (nd : Node K), t.nodes[id]? = some nd → t.nodes.length ≤ fuel + id →
      ∃ lines, nPrint t fuel id = .ok lines ∧ Outline nd.depth lines ∧
        ∀ x rest, follow x none (lines ++ rest) = answerFrom t x fuel id := by
  intro fuel
  induction fuel with
  | zero =>
    intro id nd hn hf
    have := nodeAt_lt hn
    omega
  | succ fuel ih =>
    intro id nd hn hf
    rcases h.shape.links _ _ hn with ⟨h1, h2⟩ | ⟨l, r, nl, nr, h1, h2, h3, h4, _, h6, h7, h8⟩
    · obtain ⟨p, hp⟩ := h.nodePred_total hd hn h1 (h.rows_ne hrows hn)
      have hl := leafLine_of_pred hp
      refine ⟨_, by rw [nPrint, hn]; simp only [h1, h2, hl]; rfl, ?_, ?_⟩
      · cases t.cfg.isCls with
        | true => exact .cls _ _
        | false => exact .value _ _
      · intro x rest
        have : answerFrom t x (fuel + 1) id = some p.answer := by
          unfold answerFrom walk
          rw [hn]
          simp only [h1, h2, if_true, hn, hp]
          rfl
        rw [this]
        cases t.cfg.isCls <;> rfl
    · obtain ⟨f, hf1, _⟩ := h8.feat
      obtain ⟨ls, a1, a2, a3⟩ := ih l nl h6 (by omega)
      obtain ⟨rs, b1, b2, b3⟩ := ih r nr h7 (by omega)
      rw [h8.left_depth] at a2
      rw [h8.right_depth] at b2
      refine ⟨_, by rw [nPrint, hn]; simp only [h1, h2, a1, b1]; rfl, ?_, ?_⟩
      · rw [hf1]
        exact .node _ _ _ a2 b2
      · intro x rest
        rw [hf1]
        have e : answerFrom t x (fuel + 1) id = (match x[f]? with
            | none => none
            | some v => if v ≤ nd.splitValue then answerFrom t x fuel l else answerFrom t x fuel r) := by
          conv_lhs => unfold answerFrom walk
          rw [hn]
          simp only [h1, h2, hf1]
          cases x[f]? with
          | none => rfl
          | some v =>
            dsimp only
            split_ifs <;> rfl
        rw [e, List.cons_append, List.cons_append, follow]
        cases hx : x[f]? with
        | none => rfl
        | some v =>
          dsimp only
          by_cases hv : v ≤ nd.splitValue
          · rw [if_pos hv, if_pos hv, List.append_assoc, a3]
          · rw [if_neg hv, if_neg hv, List.append_assoc, follow_skip, List.cons_append, follow]
            · simp only [Line.depth, if_true, hx, if_pos (not_le.1 hv)]
              exact b3 x rest
            · intro l' hl'
              have := a2.depth_le l' hl'
              omega

theorem nPrint_cache {t t' : Tree K G} (h : CacheOf t t') (fuel id : Nat) : nPrint t' fuel id = nPrint t fuel id := by
  induction fuel generalizing id with
  | zero => rfl
  | succ fuel ih =>
    unfold nPrint
    cases h1 : t.nodes[id]? with
    | none =>
      have : t'.nodes[id]? = none := by
        rw [List.getElem?_eq_none_iff] at h1 ⊢
        rw [h.len]; exact h1
      rw [this]
    | some nd =>
      obtain ⟨nd', h2⟩ : ∃ nd', t'.nodes[id]? = some nd' := by
        have := (List.getElem?_eq_some_iff.1 h1).1
        rw [← h.len] at this
        exact ⟨_, List.getElem?_eq_getElem this⟩
      rw [h2]
      have hc := (h.nodes _ _ _ h1 h2).eq
      have e1 : nd'.left = nd.left := by rw [hc]
      have e2 : nd'.right = nd.right := by rw [hc]
      have e3 : nd'.splitFeature = nd.splitFeature := by rw [hc]
      have e4 : nd'.splitValue = nd.splitValue := by rw [hc]
      have e5 : nd'.depth = nd.depth := by rw [hc]
      have e6 : leafLine t' nd' = leafLine t nd := by
        unfold leafLine
        rw [h.cfg, hc]
      simp only [e1, e2, e3, e4, e5, e6, ih]

end

/-- C106. A fitted tree, whatever was predicted before, can be printed. The text is a properly nested outline, and whoever follows its
rules for a point comes to the label or value that `predict` answers for the point (and to no answer exactly if `predict` raises). -/
theorem C106_print (R : Rng K G) (mem : Nat → Junk K) (A : TreeArgs K) (t t1 : Tree K G) (h : Fitted R mem A t)
    (hd : A.cfg.isCls = true → ClassesOK A.cfg.classes) (hrows : A.rows ≠ []) (ha : AfterPredicts t t1) :
    ∃ lines, t1.print = .ok lines ∧ Outline 0 lines ∧
      ∀ x, follow x none lines = (t1.predict x).toOption.map (fun (r : Pred K × Tree K G) => r.1.answer) := by
  obtain ⟨dd, t0, hf⟩ := h.facts
  obtain ⟨root, hr, _, hdep⟩ := hf.shape.root
  have hc := ha.cache hf.cache
  obtain ⟨lines, h1, h2, h3⟩ := hf.print hd hrows t.nodes.length 0 root hr (by omega)
  refine ⟨lines, ?_, by rw [← hdep]; exact h2, ?_⟩
  · unfold Tree.print
    rw [nPrint_cache hc, hc.len, h1]
  · intro x
    have h4 := h3 x []
    rw [List.append_nil] at h4
    rw [h4]
    have h5 := (predict_cache hc x).1
    have h6 : answerFrom t x t.nodes.length 0 = (purePredict t x).toOption.map Pred.answer := by
      unfold answerFrom purePredict
      cases walk t.nodes x t.nodes.length 0 with
      | error e => rfl
      | ok leaf =>
        dsimp only
        cases t.nodes[leaf]? <;> rfl
    rw [h6, ← h5]
    cases t1.predict x <;> rfl

/-- The hypotheses are met, and the text of a classification tree. -/
example : ∃ t, Fitted rngQ exMem exArgs t ∧ ClassesOK exArgs.cfg.classes ∧ exArgs.rows ≠ [] ∧
    (t.print.toOption == some [.le 0 (some 0) 1, .cls 1 0, .gt 0 (some 0) 1, .le 1 (some 0) 3, .cls 2 1, .gt 1 (some 0) 3,
      .le 2 (some 0) 4, .cls 3 0, .gt 2 (some 0) 4, .cls 3 1]) = true := by
  obtain ⟨t, h1, h2⟩ := runTree_exists (R := rngQ) (mem := exMem) (A := exArgs) (glob := exGlob)
    (p := fun (t : Tree ℚ Nat) => t.print.toOption == some [.le 0 (some 0) 1, .cls 1 0, .gt 0 (some 0) 1, .le 1 (some 0) 3, .cls 2 1,
      .gt 1 (some 0) 3, .le 2 (some 0) 4, .cls 3 0, .gt 2 (some 0) 4, .cls 3 1]) (by decide +kernel)
  exact ⟨t, h1, ⟨by decide +kernel, by decide⟩, by decide, h2⟩

/-- Following the printed rules of a regression tree. -/
example : ∃ t, Fitted rngQ exMem exArgsReg t ∧
    (t.print.toOption.map (fun ls => [[0, 2], [4, 1], [4, 9], [0]].map (fun x => follow x none ls)) ==
      some [some 0, some (3 / 2), some 7, none]) = true :=
  runTree_exists (glob := exGlob) (by decide +kernel)

end FF
