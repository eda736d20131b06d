import Verif.Model.Threads
import Verif.Proofs.TreePredict
import Verif.Proofs.ForestPredict
import Mathlib.Tactic.FieldSimp
/-!
# Calls of `predict` whose steps are interleaved
-/
set_option linter.unusedSectionVars false
namespace FF
open Spec
variable {K : Type} [Field K] [LinearOrder K] [IsStrictOrderedRing K] [FloorRing K] [NpFun K] {G : Type}

/-! ### One step at a leaf -/

/-- What the attributes of a leaf with the answer `p` may be, if they were `c0` at first. -/
def AttrOK (p : Pred K) (c0 c : LeafCache K) : Prop :=
  match p with
  | .cls L P => (c.probs = none ∨ c.probs = some P) ∧ (c.label = none ∨ c.label = some L) ∧ (c.label = none → c0.label = none)
  | .reg V => c.value = none ∨ c.value = some V

/-- What a call knows at each phase. -/
def PhaseOK (p : Pred K) (c0 c : LeafCache K) : Phase K → Prop
  | .check => ∃ L P, p = .cls L P
  | .hitLabel => ∃ L P, p = .cls L P ∧ c.probs = some P
  | .hitProbs l => ∃ L P, p = .cls L P ∧ c.probs = some P ∧ (l = some L ∨ l = none ∧ c0.label = none)
  | .setProbs => ∃ L P, p = .cls L P
  | .argmax => ∃ L P, p = .cls L P ∧ c.probs = some P
  | .setLabel l => ∃ P, p = .cls l P ∧ c.probs = some P
  | .asserting => ∃ L P, p = .cls L P ∧ c.probs = some P ∧ c.label = some L
  | .retLabel => ∃ L P, p = .cls L P ∧ c.probs = some P ∧ c.label = some L
  | .retProbs l => ∃ L P, p = .cls L P ∧ c.probs = some P ∧ l = some L
  | .checkValue => ∃ V, p = .reg V
  | .hitValue => ∃ V, p = .reg V ∧ c.value = some V
  | .setValue => ∃ V, p = .reg V
  | .retValue => ∃ V, p = .reg V ∧ c.value = some V

/-- What an answer may be. -/
def GotOK (p : Pred K) (c0 : LeafCache K) (a : Got K) : Prop :=
  match p with
  | .cls L P => a = .cls (some L) (some P) ∨ a = .cls none (some P) ∧ c0.label = none
  | .reg V => a = .reg (some V)

/-- Attributes that are set keep their value. -/
def Stays (c c' : LeafCache K) (p : Pred K) : Prop :=
  match p with
  | .cls L P => (c.probs = some P → c'.probs = some P) ∧ (c.label = some L → c'.label = some L)
  | .reg V => c.value = some V → c'.value = some V

theorem Stays.refl (c : LeafCache K) (p : Pred K) : Stays c c p := by
  cases p with
  | cls L P => exact ⟨id, id⟩
  | reg V => exact id

theorem PhaseOK.stays {p : Pred K} {c0 c c' : LeafCache K} {ph : Phase K} (h : PhaseOK p c0 c ph) (hs : Stays c c' p) : PhaseOK p c0 c' ph := by
  cases ph with
  | check => exact h
  | hitLabel => obtain ⟨L, P, rfl, h1⟩ := h; exact ⟨L, P, rfl, hs.1 h1⟩
  | hitProbs l => obtain ⟨L, P, rfl, h1, h2⟩ := h; exact ⟨L, P, rfl, hs.1 h1, h2⟩
  | setProbs => exact h
  | argmax => obtain ⟨L, P, rfl, h1⟩ := h; exact ⟨L, P, rfl, hs.1 h1⟩
  | setLabel l => obtain ⟨P, rfl, h1⟩ := h; exact ⟨P, rfl, hs.1 h1⟩
  | asserting => obtain ⟨L, P, rfl, h1, h2⟩ := h; exact ⟨L, P, rfl, hs.1 h1, hs.2 h2⟩
  | retLabel => obtain ⟨L, P, rfl, h1, h2⟩ := h; exact ⟨L, P, rfl, hs.1 h1, hs.2 h2⟩
  | retProbs l => obtain ⟨L, P, rfl, h1, h2⟩ := h; exact ⟨L, P, rfl, hs.1 h1, h2⟩
  | checkValue => exact h
  | hitValue => obtain ⟨V, rfl, h1⟩ := h; exact ⟨V, rfl, hs h1⟩
  | setValue => exact h
  | retValue => obtain ⟨V, rfl, h1⟩ := h; exact ⟨V, rfl, hs h1⟩

/-- How many steps a call has left at most. -/
def Phase.left : Phase K → Nat
  | .check => 7
  | .setProbs => 6
  | .argmax => 5
  | .setLabel _ => 4
  | .asserting => 3
  | .retLabel => 2
  | .retProbs _ => 1
  | .hitLabel => 2
  | .hitProbs _ => 1
  | .checkValue => 3
  | .setValue => 2
  | .retValue => 1
  | .hitValue => 1

/-- A classification leaf with an answer. -/
theorem nodePred_cls_parts {cfg : TreeCfg K} {nd : Node K} {L : K} {P : List K} (h : nodePred cfg nd = .ok (.cls L P)) :
    cfg.isCls = true ∧ nd.counts.sum ≠ 0 ∧ P = nd.counts.map (fun (c : Nat) => (c : K) / ((nd.counts.sum : Nat) : K)) ∧
      ∃ i, npArgmax P = some i ∧ idxToClass cfg.classes i = some L := by
  unfold nodePred at h
  by_cases hc : cfg.isCls = true
  · rw [if_pos hc] at h
    by_cases hs : nd.counts.sum = 0
    · rw [if_pos hs] at h; cases h
    · rw [if_neg hs] at h
      cases hi : npArgmax (nd.counts.map (fun (c : Nat) => (c : K) / ((nd.counts.sum : Nat) : K))) with
      | none => rw [hi] at h; cases h
      | some i =>
        rw [hi] at h
        simp only [] at h
        cases hl : idxToClass cfg.classes i with
        | none => rw [hl] at h; cases h
        | some l =>
          rw [hl] at h
          cases h
          exact ⟨hc, hs, rfl, i, hi, hl⟩
  · rw [if_neg hc] at h
    cases hl : nd.labels with
    | none => rw [hl] at h; cases h
    | some ls =>
      rw [hl] at h
      cases ls <;> cases h

/-- A regression leaf with an answer. -/
theorem nodePred_reg_parts {cfg : TreeCfg K} {nd : Node K} {V : K} (h : nodePred cfg nd = .ok (.reg V)) :
    cfg.isCls = false ∧ ∃ ls, nd.labels = some ls ∧ ls ≠ [] ∧ V = npMean ls := by
  unfold nodePred at h
  by_cases hc : cfg.isCls = true
  · rw [if_pos hc] at h
    by_cases hs : nd.counts.sum = 0
    · rw [if_pos hs] at h; cases h
    · rw [if_neg hs] at h
      cases hi : npArgmax (nd.counts.map (fun (c : Nat) => (c : K) / ((nd.counts.sum : Nat) : K))) with
      | none => rw [hi] at h; cases h
      | some i =>
        rw [hi] at h
        simp only [] at h
        cases hl : idxToClass cfg.classes i with
        | none => rw [hl] at h; cases h
        | some l => rw [hl] at h; cases h
  · rw [if_neg hc] at h
    refine ⟨by simpa using hc, ?_⟩
    cases hl : nd.labels with
    | none => rw [hl] at h; cases h
    | some ls =>
      rw [hl] at h
      cases ls with
      | nil => cases h
      | cons a b => cases h; exact ⟨_, rfl, by simp, rfl⟩

theorem counts_div_sum (l : List Nat) (s : K) : (l.map (fun (c : Nat) => (c : K) / s)).sum = ((l.sum : Nat) : K) / s := by
  induction l with
  | nil => simp
  | cons a l ih => simp only [List.map_cons, List.sum_cons, ih, Nat.cast_add, add_div]

/-- One step of a call at a leaf. -/
theorem phaseStep_ok {cfg : TreeCfg K} {nd : Node K} {p : Pred K} {c0 c : LeafCache K} {ph : Phase K} (hp : nodePred cfg nd = .ok p)
    (hc : AttrOK p c0 c) (hph : PhaseOK p c0 c ph) :
    AttrOK p c0 (phaseStep cfg nd c ph).2 ∧ Stays c (phaseStep cfg nd c ph).2 p ∧
    ((∃ ph', (phaseStep cfg nd c ph).1 = .ok (.inl ph') ∧ PhaseOK p c0 (phaseStep cfg nd c ph).2 ph' ∧ ph'.left < ph.left) ∨
     (∃ a, (phaseStep cfg nd c ph).1 = .ok (.inr a) ∧ GotOK p c0 a)) := by
  cases ph with
  | check =>
    obtain ⟨L, P, rfl⟩ := hph
    refine ⟨hc, .refl _ _, .inl ⟨_, rfl, ?_, ?_⟩⟩
    · rcases hc.1 with h | h
      · simp only [phaseStep, h, Option.isSome_none, Bool.false_eq_true, if_false]
        exact ⟨L, P, rfl⟩
      · simp only [phaseStep, h, Option.isSome_some, if_true]
        exact ⟨L, P, rfl, h⟩
    · split <;> simp [Phase.left]
  | hitLabel =>
    obtain ⟨L, P, rfl, h1⟩ := hph
    refine ⟨hc, .refl _ _, .inl ⟨_, rfl, ⟨L, P, rfl, h1, ?_⟩, by simp [Phase.left]⟩⟩
    rcases hc.2.1 with h | h
    · exact .inr ⟨h, hc.2.2 h⟩
    · exact .inl h
  | hitProbs l =>
    obtain ⟨L, P, rfl, h1, h2⟩ := hph
    refine ⟨hc, .refl _ _, .inr ⟨_, rfl, ?_⟩⟩
    simp only [GotOK, h1]
    rcases h2 with rfl | ⟨rfl, h2⟩
    · exact .inl rfl
    · exact .inr ⟨rfl, h2⟩
  | setProbs =>
    obtain ⟨L, P, rfl⟩ := hph
    obtain ⟨_, h2, h3, _⟩ := nodePred_cls_parts hp
    simp only [phaseStep, if_neg h2]
    exact ⟨⟨.inr (by rw [h3]), hc.2⟩, ⟨fun _ => by rw [h3], id⟩, .inl ⟨_, rfl, ⟨L, P, rfl, by rw [h3]⟩, by simp [Phase.left]⟩⟩
  | argmax =>
    obtain ⟨L, P, rfl, h1⟩ := hph
    obtain ⟨_, _, _, i, h4, h5⟩ := nodePred_cls_parts hp
    simp only [phaseStep, h1, h4, h5]
    exact ⟨hc, .refl _ _, .inl ⟨_, rfl, ⟨P, rfl, h1⟩, by simp [Phase.left]⟩⟩
  | setLabel l =>
    obtain ⟨P, rfl, h1⟩ := hph
    simp only [phaseStep]
    refine ⟨⟨hc.1, .inr rfl, fun q => ?_⟩, ⟨id, fun _ => rfl⟩, .inl ⟨_, rfl, ⟨l, P, rfl, h1, rfl⟩, by simp [Phase.left]⟩⟩
    cases q
  | asserting =>
    obtain ⟨L, P, rfl, h1, h2⟩ := hph
    obtain ⟨_, h3, h4, _⟩ := nodePred_cls_parts hp
    have hs : P.sum = 1 := by
      rw [h4, counts_div_sum]
      exact div_self (by exact_mod_cast h3)
    simp only [phaseStep, h1, if_pos hs]
    exact ⟨hc, .refl _ _, .inl ⟨_, rfl, ⟨L, P, rfl, h1, h2⟩, by simp [Phase.left]⟩⟩
  | retLabel =>
    obtain ⟨L, P, rfl, h1, h2⟩ := hph
    exact ⟨hc, .refl _ _, .inl ⟨_, rfl, ⟨L, P, rfl, h1, h2⟩, by simp [Phase.left]⟩⟩
  | retProbs l =>
    obtain ⟨L, P, rfl, h1, rfl⟩ := hph
    exact ⟨hc, .refl _ _, .inr ⟨_, rfl, .inl (by rw [h1])⟩⟩
  | checkValue =>
    obtain ⟨V, rfl⟩ := hph
    refine ⟨hc, .refl _ _, .inl ⟨_, rfl, ?_, ?_⟩⟩
    · rcases hc with h | h
      · simp only [phaseStep, h, Option.isSome_none, Bool.false_eq_true, if_false]
        exact ⟨V, rfl⟩
      · simp only [phaseStep, h, Option.isSome_some, if_true]
        exact ⟨V, rfl, h⟩
    · split <;> simp [Phase.left]
  | hitValue =>
    obtain ⟨V, rfl, h1⟩ := hph
    exact ⟨hc, .refl _ _, .inr ⟨_, rfl, by simp only [GotOK, h1]⟩⟩
  | setValue =>
    obtain ⟨V, rfl⟩ := hph
    obtain ⟨_, ls, h1, h2, rfl⟩ := nodePred_reg_parts hp
    cases ls with
    | nil => exact absurd rfl h2
    | cons a b =>
      simp only [phaseStep, h1]
      exact ⟨.inr rfl, fun _ => rfl, .inl ⟨_, rfl, ⟨_, rfl, rfl⟩, by simp [Phase.left]⟩⟩
  | retValue =>
    obtain ⟨V, rfl, h1⟩ := hph
    simp only [phaseStep, h1]
    exact ⟨hc, .refl _ _, .inr ⟨_, rfl, rfl⟩⟩

/-! ### All threads -/

/-- A tree whose leaves have answers, the cached ones among them. -/
structure Steady (t : Tree K G) : Prop where
  total : ∀ (id : Nat) (nd : Node K), t.nodes[id]? = some nd → nd.left = none → ∃ p, nodePred t.cfg nd = .ok p
  cls : ∀ (id : Nat) (nd : Node K) (l : K) (p : List K), t.nodes[id]? = some nd → t.cfg.isCls = true → nd.cacheCls = some (l, p) →
    nodePred t.cfg nd = .ok (.cls l p)
  reg : ∀ (id : Nat) (nd : Node K) (v : K), t.nodes[id]? = some nd → t.cfg.isCls = false → nd.cacheReg = some v →
    nodePred t.cfg nd = .ok (.reg v)

theorem walk_leaf {nodes : List (Node K)} {x : List K} {fuel id leaf : Nat} (h : walk nodes x fuel id = .ok leaf) :
    ∃ nd, nodes[leaf]? = some nd ∧ nd.left = none := by
  induction fuel generalizing id with
  | zero => cases h
  | succ n ih =>
    unfold walk at h
    cases hn : nodes[id]? with
    | none => rw [hn] at h; cases h
    | some nd =>
      rw [hn] at h
      simp only [] at h
      cases hl : nd.left with
      | none =>
        rw [hl] at h
        simp only [] at h
        by_cases hr : nd.right = none
        · rw [if_pos hr] at h
          cases h
          exact ⟨nd, hn, hl⟩
        · rw [if_neg hr] at h; cases h
      | some l =>
        rw [hl] at h
        simp only [] at h
        cases hf : nd.splitFeature with
        | none => rw [hf] at h; cases h
        | some f =>
          rw [hf] at h
          simp only [] at h
          cases hx : x[f]? with
          | none => rw [hx] at h; cases h
          | some v =>
            rw [hx] at h
            simp only [] at h
            by_cases hv : v ≤ nd.splitValue
            · rw [if_pos hv] at h; exact ih h
            · rw [if_neg hv] at h
              cases hr : nd.right with
              | none => rw [hr] at h; cases h
              | some r => rw [hr] at h; exact ih h

/-- A call in progress. -/
structure CallOK (trees : List (Tree K G)) (c : Caches K) (call : Call K) (t : Tree K G) (nd : Node K) (p : Pred K) : Prop where
  tree : trees[call.tree]? = some t
  walk : walk t.nodes call.point t.nodes.length 0 = .ok call.leaf
  node : t.nodes[call.leaf]? = some nd
  leaf : nd.left = none
  pred : nodePred t.cfg nd = .ok p
  phase : PhaseOK p (cachesOf trees call.tree call.leaf) (c call.tree call.leaf) call.phase

/-- An answer that has been given. -/
def AnswerOK (trees : List (Tree K G)) (q : (Nat × List K) × Got K) : Prop :=
  ∃ t p leaf, trees[q.1.1]? = some t ∧ purePredict t q.1.2 = .ok p ∧ walk t.nodes q.1.2 t.nodes.length 0 = .ok leaf ∧
    GotOK p (cachesOf trees q.1.1 leaf) q.2

/-- A thread that had the calls `js` to make. -/
structure ThreadOK (trees : List (Tree K G)) (c : Caches K) (js : List (Nat × List K)) (th : Thread K) : Prop where
  order : th.got.map Prod.fst ++ ((th.now.toList.map (fun (call : Call K) => (call.tree, call.point))) ++ th.todo) = js
  got : ∀ q ∈ th.got, AnswerOK trees q
  now : ∀ call, th.now = some call → ∃ t nd p, CallOK trees c call t nd p
  raised : ∀ e, th.raised = some e → ∃ k x, (k, x) ∈ js ∧
    ((trees[k]? = none ∧ e = .indexError) ∨ ∃ t, trees[k]? = some t ∧ purePredict t x = .error e)

/-- The attributes of the leaves. -/
def CachesOK (trees : List (Tree K G)) (c : Caches K) : Prop :=
  ∀ (k id : Nat) (t : Tree K G) (nd : Node K) (p : Pred K), trees[k]? = some t → t.nodes[id]? = some nd → nd.left = none →
    nodePred t.cfg nd = .ok p → AttrOK p (cachesOf trees k id) (c k id)

/-- No attribute that is set changes. -/
def CachesStay (trees : List (Tree K G)) (c c' : Caches K) : Prop :=
  ∀ (k id : Nat) (t : Tree K G) (nd : Node K) (p : Pred K), trees[k]? = some t → t.nodes[id]? = some nd → nodePred t.cfg nd = .ok p →
    Stays (c k id) (c' k id) p

theorem CachesStay.refl (trees : List (Tree K G)) (c : Caches K) : CachesStay trees c c := fun _ _ _ _ _ _ _ _ => Stays.refl _ _

theorem cachesOf_ok {trees : List (Tree K G)} (hT : ∀ t ∈ trees, Steady t) : CachesOK trees (cachesOf trees) := by
  intro k id t nd p ht hn hl hp
  have h := hT t (List.mem_of_getElem? ht)
  simp only [cachesOf, ht, hn, AttrOK]
  cases p with
  | cls L P =>
    obtain ⟨hc, _⟩ := nodePred_cls_parts hp
    cases hcc : nd.cacheCls with
    | none => exact ⟨.inl rfl, .inl rfl, fun q => q⟩
    | some q =>
      obtain ⟨l, pr⟩ := q
      have h1 := h.cls id nd l pr hn hc hcc
      rw [hp] at h1
      cases h1
      exact ⟨.inr rfl, .inr rfl, (fun q => by cases q)⟩
  | reg V =>
    obtain ⟨hc, _⟩ := nodePred_reg_parts hp
    cases hcc : nd.cacheReg with
    | none => exact .inl rfl
    | some v =>
      have h1 := h.reg id nd v hn hc hcc
      rw [hp] at h1
      cases h1
      exact .inr rfl

theorem ThreadOK.stay {trees : List (Tree K G)} {c c' : Caches K} {js : List (Nat × List K)} {th : Thread K} (h : ThreadOK trees c js th)
    (hs : CachesStay trees c c') : ThreadOK trees c' js th := by
  refine ⟨h.order, h.got, fun call hcall => ?_, h.raised⟩
  obtain ⟨t, nd, p, hc⟩ := h.now call hcall
  exact ⟨t, nd, p, hc.tree, hc.walk, hc.node, hc.leaf, hc.pred, hc.phase.stays (hs _ _ t nd p hc.tree hc.node hc.pred)⟩

/-- How many steps a thread has left at most. -/
def Thread.left (th : Thread K) : Nat :=
  if th.raised.isSome then 0
  else 8 * th.todo.length + (match th.now with
    | none => 0
    | some call => call.phase.left)

theorem Thread.step_ok {trees : List (Tree K G)} (hT : ∀ t ∈ trees, Steady t) {c : Caches K} (hc : CachesOK trees c)
    {js : List (Nat × List K)} {th th' : Thread K} {c' : Caches K} (h : ThreadOK trees c js th) (hs : th.step trees c = some (th', c')) :
    CachesOK trees c' ∧ CachesStay trees c c' ∧ ThreadOK trees c' js th' ∧ th'.left < th.left := by
  unfold Thread.step at hs
  cases hr : th.raised with
  | some e => rw [hr] at hs; cases hs
  | none =>
    rw [hr] at hs
    simp only [] at hs
    cases hnow : th.now with
    | none =>
      rw [hnow] at hs
      simp only [] at hs
      cases htodo : th.todo with
      | nil => rw [htodo] at hs; cases hs
      | cons j rest =>
        obtain ⟨k, x⟩ := j
        rw [htodo] at hs
        simp only [] at hs
        have hmem : (k, x) ∈ js := by rw [← h.order, htodo]; simp
        have hleft : th.left = 8 * (rest.length + 1) := by simp [Thread.left, hr, hnow, htodo]
        cases ht : trees[k]? with
        | none =>
          rw [ht] at hs
          cases hs
          refine ⟨hc, .refl _ _, ⟨by have := h.order; rw [hnow, htodo] at this; exact this, h.got, (fun _ hq => by cases hq), fun e he => ?_⟩, ?_⟩
          · cases he
            exact ⟨k, x, hmem, .inl ⟨ht, rfl⟩⟩
          · rw [hleft]; simp [Thread.left]
        | some t =>
          rw [ht] at hs
          simp only [] at hs
          cases hw : walk t.nodes x t.nodes.length 0 with
          | error e =>
            rw [hw] at hs
            cases hs
            refine ⟨hc, .refl _ _, ⟨by have := h.order; rw [hnow, htodo] at this; exact this, h.got, (fun _ hq => by cases hq), fun e' he => ?_⟩, ?_⟩
            · cases he
              exact ⟨k, x, hmem, .inr ⟨t, ht, by simp only [purePredict, hw]⟩⟩
            · rw [hleft]; simp [Thread.left]
          | ok id =>
            rw [hw] at hs
            cases hs
            refine ⟨hc, .refl _ _, ⟨?_, h.got, fun call hcall => ?_, fun e he => ?_⟩, ?_⟩
            · have := h.order
              rw [hnow, htodo] at this
              simpa using this
            · cases hcall
              obtain ⟨nd, hn, hl⟩ := walk_leaf hw
              obtain ⟨p, hp⟩ := (hT t (List.mem_of_getElem? ht)).total id nd hn hl
              refine ⟨t, nd, p, ht, hw, hn, hl, hp, ?_⟩
              cases p with
              | cls L P =>
                obtain ⟨h1, _⟩ := nodePred_cls_parts hp
                simp only [h1, if_true]
                exact ⟨L, P, rfl⟩
              | reg V =>
                obtain ⟨h1, _⟩ := nodePred_reg_parts hp
                simp only [h1, Bool.false_eq_true, if_false]
                exact ⟨V, rfl⟩
            · cases he
            · rw [hleft]
              have h3 : (if t.cfg.isCls = true then Phase.check else Phase.checkValue : Phase K).left ≤ 7 := by
                split <;> simp [Phase.left]
              simp only [Thread.left, Option.isSome_none, Bool.false_eq_true, if_false]
              omega
    | some call =>
      rw [hnow] at hs
      simp only [] at hs
      obtain ⟨t, nd, p, hcall⟩ := h.now call hnow
      rw [hcall.tree] at hs
      simp only [] at hs
      rw [hcall.node] at hs
      simp only [] at hs
      obtain ⟨s1, s2, s3⟩ := phaseStep_ok hcall.pred (hc _ _ t nd p hcall.tree hcall.node hcall.leaf hcall.pred) hcall.phase
      have hok : CachesOK trees (fun k id => if k = call.tree ∧ id = call.leaf then (phaseStep t.cfg nd (c call.tree call.leaf) call.phase).2 else c k id) := by
        intro k id t' nd' p' ht' hn' hl' hp'
        by_cases hk : k = call.tree ∧ id = call.leaf
        · obtain ⟨rfl, rfl⟩ := hk
          simp only [and_self, if_true]
          obtain rfl := Option.some.inj (hcall.tree.symm.trans ht')
          obtain rfl := Option.some.inj (hcall.node.symm.trans hn')
          obtain rfl := Except.ok.inj (hcall.pred.symm.trans hp')
          exact s1
        · simp only [if_neg hk]
          exact hc k id t' nd' p' ht' hn' hl' hp'
      have hstay : CachesStay trees c (fun k id => if k = call.tree ∧ id = call.leaf then (phaseStep t.cfg nd (c call.tree call.leaf) call.phase).2 else c k id) := by
        intro k id t' nd' p' ht' hn' hp'
        by_cases hk : k = call.tree ∧ id = call.leaf
        · obtain ⟨rfl, rfl⟩ := hk
          simp only [and_self, if_true]
          obtain rfl := Option.some.inj (hcall.tree.symm.trans ht')
          obtain rfl := Option.some.inj (hcall.node.symm.trans hn')
          obtain rfl := Except.ok.inj (hcall.pred.symm.trans hp')
          exact s2
        · simp only [if_neg hk]
          exact Stays.refl _ _
      have hleft : th.left = 8 * th.todo.length + call.phase.left := by simp [Thread.left, hr, hnow]
      have hord := h.order
      rw [hnow] at hord
      rcases s3 with ⟨ph', e1, e2, e3⟩ | ⟨a, e1, e2⟩
      · rw [e1] at hs
        cases hs
        refine ⟨hok, hstay, ⟨hord, h.got, fun call' hc' => ?_, fun e he => ?_⟩, ?_⟩
        · cases hc'
          refine ⟨t, nd, p, hcall.tree, hcall.walk, hcall.node, hcall.leaf, hcall.pred, ?_⟩
          simp only [and_self, if_true]
          exact e2
        · cases he
        · rw [hleft]
          simp only [Thread.left, Option.isSome_none, Bool.false_eq_true, if_false]
          omega
      · rw [e1] at hs
        cases hs
        refine ⟨hok, hstay, ⟨?_, fun q hq => ?_, fun call' hc' => ?_, fun e he => ?_⟩, ?_⟩
        · rw [← hord]
          simp
        · rcases List.mem_append.1 hq with hq | hq
          · exact h.got q hq
          · obtain rfl := List.mem_singleton.1 hq
            refine ⟨t, p, call.leaf, hcall.tree, ?_, hcall.walk, e2⟩
            simp only [purePredict, hcall.walk, hcall.node]
            exact hcall.pred
        · cases hc'
        · cases he
        · rw [hleft]
          have : 0 < call.phase.left := by cases call.phase <;> simp [Phase.left]
          simp only [Thread.left, Option.isSome_none, Bool.false_eq_true, if_false]
          omega

/-- All threads together. -/
structure MachineOK (trees : List (Tree K G)) (jobs : List (List (Nat × List K))) (m : Machine K) : Prop where
  caches : CachesOK trees m.caches
  len : m.threads.length = jobs.length
  threads : ∀ (i : Nat) (th : Thread K) (js : List (Nat × List K)), m.threads[i]? = some th → jobs[i]? = some js →
    ThreadOK trees m.caches js th

theorem start_ok {trees : List (Tree K G)} (hT : ∀ t ∈ trees, Steady t) (jobs : List (List (Nat × List K))) :
    MachineOK trees jobs (Machine.start trees jobs) := by
  refine ⟨cachesOf_ok hT, by simp [Machine.start], ?_⟩
  intro i th js hi hj
  simp only [Machine.start, List.getElem?_map, hj, Option.map_some, Option.some.injEq] at hi
  subst hi
  exact ⟨by simp, fun q hq => absurd hq (by simp), (fun _ hc => by cases hc), (fun _ he => by cases he)⟩

theorem Machine.step_ok {trees : List (Tree K G)} (hT : ∀ t ∈ trees, Steady t) {jobs : List (List (Nat × List K))} {m m' : Machine K}
    (h : MachineOK trees jobs m) {i : Nat} (hs : m.step trees i = some m') : MachineOK trees jobs m' := by
  unfold Machine.step at hs
  cases hi : m.threads[i]? with
  | none => rw [hi] at hs; cases hs
  | some th =>
    rw [hi] at hs
    simp only [] at hs
    cases hth : th.step trees m.caches with
    | none => rw [hth] at hs; cases hs
    | some q =>
      obtain ⟨th', c'⟩ := q
      rw [hth] at hs
      cases hs
      have hlt : i < jobs.length := by
        rw [← h.len]
        exact (List.getElem?_eq_some_iff.1 hi).1
      obtain ⟨js, hj⟩ : ∃ js, jobs[i]? = some js := ⟨_, List.getElem?_eq_getElem hlt⟩
      obtain ⟨h1, h2, h3, _⟩ := Thread.step_ok hT h.caches (h.threads i th js hi hj) hth
      refine ⟨h1, by simp [h.len], ?_⟩
      intro a tha jsa hia hja
      by_cases hai : i = a
      · subst hai
        rw [List.getElem?_set_self (by rw [h.len]; exact hlt)] at hia
        cases hia
        rw [hj] at hja
        cases hja
        exact h3
      · rw [List.getElem?_set_ne hai] at hia
        exact (h.threads a tha jsa hia hja).stay h2

theorem Machine.run_ok {trees : List (Tree K G)} (hT : ∀ t ∈ trees, Steady t) {jobs : List (List (Nat × List K))} (sched : List Nat) :
    ∀ {m : Machine K}, MachineOK trees jobs m → MachineOK trees jobs (m.run trees sched) := by
  induction sched with
  | nil => exact fun h => h
  | cons i is ih =>
    intro m h
    rw [Machine.run]
    apply ih
    cases hs : m.step trees i with
    | none => exact h
    | some m' => exact Machine.step_ok hT h hs

/-! ### Progress -/

theorem Thread.step_none {trees : List (Tree K G)} {c : Caches K} {th : Thread K} (h : th.step trees c = none) :
    (∃ e, th.raised = some e) ∨ (th.now = none ∧ th.todo = []) := by
  unfold Thread.step at h
  cases hr : th.raised with
  | some e => exact .inl ⟨e, rfl⟩
  | none =>
    rw [hr] at h
    simp only [] at h
    right
    cases hnow : th.now with
    | none =>
      rw [hnow] at h
      simp only [] at h
      cases htodo : th.todo with
      | nil => exact ⟨rfl, rfl⟩
      | cons j rest =>
        obtain ⟨k, x⟩ := j
        rw [htodo] at h
        simp only [] at h
        cases ht : trees[k]? with
        | none => rw [ht] at h; cases h
        | some t =>
          rw [ht] at h
          simp only [] at h
          cases hw : walk t.nodes x t.nodes.length 0 <;> rw [hw] at h <;> cases h
    | some call =>
      rw [hnow] at h
      simp only [] at h
      cases ht : trees[call.tree]? with
      | none => rw [ht] at h; cases h
      | some t =>
        rw [ht] at h
        simp only [] at h
        cases hn : t.nodes[call.leaf]? with
        | none => rw [hn] at h; cases h
        | some nd =>
          rw [hn] at h
          simp only [] at h
          cases hs : (phaseStep t.cfg nd (c call.tree call.leaf) call.phase).1 with
          | error e => rw [hs] at h; cases h
          | ok r =>
            rw [hs] at h
            cases r <;> cases h

theorem Machine.run_len {trees : List (Tree K G)} (sched : List Nat) : ∀ m : Machine K, (m.run trees sched).threads.length = m.threads.length := by
  induction sched with
  | nil => exact fun _ => rfl
  | cons i is ih =>
    intro m
    rw [Machine.run, ih]
    unfold Machine.step
    cases m.threads[i]? with
    | none => rfl
    | some th =>
      simp only []
      cases th.step trees m.caches with
      | none => rfl
      | some q => simp

/-- What a thread that is scheduled `n` times has left to do. -/
theorem Machine.run_left {trees : List (Tree K G)} (hT : ∀ t ∈ trees, Steady t) {jobs : List (List (Nat × List K))} (i : Nat) (sched : List Nat) :
    ∀ {m : Machine K} {th th' : Thread K}, MachineOK trees jobs m → m.threads[i]? = some th → (m.run trees sched).threads[i]? = some th' →
      th'.left ≤ th.left - sched.count i := by
  induction sched with
  | nil =>
    intro m th th' _ h1 h2
    obtain rfl := Option.some.inj (h1.symm.trans h2)
    simp
  | cons a as ih =>
    intro m th th' hm h1 h2
    rw [Machine.run] at h2
    by_cases ha : a = i
    · subst ha
      rw [List.count_cons_self]
      cases hs : m.step trees a with
      | none =>
        rw [hs] at h2
        have h3 : th.left = 0 := by
          unfold Machine.step at hs
          rw [h1] at hs
          simp only [] at hs
          cases hth : th.step trees m.caches with
          | some q => rw [hth] at hs; cases hs
          | none =>
            rcases Thread.step_none hth with ⟨e, he⟩ | ⟨e1, e2⟩
            · simp [Thread.left, he]
            · simp only [Thread.left, e1, e2]
              split <;> rfl
        have := ih hm h1 h2
        omega
      | some m' =>
        rw [hs] at h2
        have hm' := Machine.step_ok hT hm hs
        unfold Machine.step at hs
        rw [h1] at hs
        simp only [] at hs
        cases hth : th.step trees m.caches with
        | none => rw [hth] at hs; cases hs
        | some q =>
          obtain ⟨th1, c'⟩ := q
          rw [hth] at hs
          cases hs
          have hlt : a < m.threads.length := (List.getElem?_eq_some_iff.1 h1).1
          obtain ⟨js, hj⟩ : ∃ js, jobs[a]? = some js := ⟨_, List.getElem?_eq_getElem (by rw [← hm.len]; exact hlt)⟩
          obtain ⟨_, _, _, h4⟩ := Thread.step_ok hT hm.caches (hm.threads a th js h1 hj) hth
          have := ih hm' (List.getElem?_set_self hlt) h2
          omega
    · rw [List.count_cons_of_ne ha]
      cases hs : m.step trees a with
      | none =>
        rw [hs] at h2
        exact ih hm h1 h2
      | some m' =>
        rw [hs] at h2
        refine ih (Machine.step_ok hT hm hs) ?_ h2
        unfold Machine.step at hs
        cases hi : m.threads[a]? with
        | none => rw [hi] at hs; cases hs
        | some tha =>
          rw [hi] at hs
          simp only [] at hs
          cases hth : tha.step trees m.caches with
          | none => rw [hth] at hs; cases hs
          | some q =>
            rw [hth] at hs
            cases hs
            rw [← h1]
            exact List.getElem?_set_ne ha

/-- A thread with nothing left has given all its answers. -/
theorem Thread.left_zero {trees : List (Tree K G)} {c : Caches K} {js : List (Nat × List K)} {th : Thread K} (h : ThreadOK trees c js th)
    (h0 : th.left = 0) : (∃ e, th.raised = some e) ∨ th.got.map Prod.fst = js := by
  unfold Thread.left at h0
  cases hr : th.raised with
  | some e => exact .inl ⟨e, rfl⟩
  | none =>
    right
    rw [hr] at h0
    simp only [Option.isSome_none, Bool.false_eq_true, if_false] at h0
    cases hnow : th.now with
    | some call =>
      rw [hnow] at h0
      simp only [] at h0
      have : 0 < call.phase.left := by cases call.phase <;> simp [Phase.left]
      omega
    | none =>
      rw [hnow] at h0
      have h1 : th.todo = [] := List.length_eq_zero_iff.1 (by omega)
      have := h.order
      rw [hnow, h1] at this
      simpa using this

/-! ### Fitted trees -/

theorem CacheOf.steady {t t1 : Tree K G} (h : CacheOf t t1)
    (ht : ∀ (id : Nat) (nd : Node K), t.nodes[id]? = some nd → nd.left = none → ∃ p, nodePred t.cfg nd = .ok p) : Steady t1 := by
  have key : ∀ (id : Nat) (nd : Node K), t1.nodes[id]? = some nd →
      ∃ nd0 : Node K, t.nodes[id]? = some nd0 ∧ CacheNode t.cfg nd0 nd ∧ nodePred t1.cfg nd = nodePred t.cfg nd0 ∧ nd.left = nd0.left := by
    intro id nd hn
    have hlt : id < t.nodes.length := by rw [← h.len]; exact (List.getElem?_eq_some_iff.1 hn).1
    have hn0 : t.nodes[id]? = some t.nodes[id] := List.getElem?_eq_getElem hlt
    have hc := h.nodes id _ nd hn0 hn
    refine ⟨_, hn0, hc, ?_, ?_⟩
    · rw [h.cfg, hc.eq]; rfl
    · rw [hc.eq]
  refine ⟨?_, ?_, ?_⟩
  · intro id nd hn hl
    obtain ⟨nd0, h1, _, h3, h4⟩ := key id nd hn
    rw [h3]
    exact ht id nd0 h1 (h4 ▸ hl)
  · intro id nd l p hn hc hcc
    obtain ⟨nd0, h1, h2, h3, _⟩ := key id nd hn
    rw [h3]
    exact h2.cls (by rw [← h.cfg]; exact hc) l p hcc
  · intro id nd v hn hc hcc
    obtain ⟨nd0, h1, h2, h3, _⟩ := key id nd hn
    rw [h3]
    exact h2.reg (by rw [← h.cfg]; exact hc) v hcc

/-- A tree answers alone like its caches say. -/
theorem Steady.predict {t : Tree K G} (h : Steady t) (x : List K) : (t.predict x).map Prod.fst = purePredict t x := by
  have hc : CacheOf t t := by
    refine ⟨rfl, rfl, rfl, ?_⟩
    intro id nd nd' h1 h2
    obtain rfl := Option.some.inj (h1.symm.trans h2)
    exact ⟨rfl, fun hc l p hp => h.cls id nd l p h1 hc hp, fun hc v hp => h.reg id nd v h1 hc hp⟩
  exact (predict_cache hc x).1

end FF
