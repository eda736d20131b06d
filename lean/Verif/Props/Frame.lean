import Verif.Model.Wrappers
import Verif.Spec.Compare
import Mathlib.Tactic.SplitIfs

set_option linter.unusedSectionVars false

/-!
# What `fit` reads of the process

Training reads one array of targets and the process-wide generators; where the array is stored, and which other arrays there are, does not
matter.
-/

namespace FF

variable {K : Type} [Field K] [LinearOrder K] [IsStrictOrderedRing K] [FloorRing K] [NpFun K] {G : Type}
variable {R : Rng K G} {mem : Nat → Nat → Junk K}

/-- Two runs that end the same way: with the same error, or with results in the relation `P`. -/
def EndSame {α : Type} (P : α → α → Prop) (x y : Except Err α) : Prop :=
  match x, y with
  | .error e, .error e' => e = e'
  | .ok a, .ok b => P a b
  | _, _ => False

/-- Two states of training that differ in the place of the target array only. -/
structure LabelSim (f : Forest K G) (w : World K G) (f2 : Forest K G) (w2 : World K G) : Prop where
  eq : f2 = { f with orgRef := f2.orgRef, newRef := f2.newRef }
  glob : w2.glob = w.glob
  boost : f.cfg.boosting = true → ∃ r r2 : Nat, f.newRef = some r ∧ f2.newRef = some r2 ∧ r < w.arrays.length ∧ r2 < w2.arrays.length ∧
    w.arrays.getD r [] = w2.arrays.getD r2 []
  plain : f.cfg.boosting = false → ∃ r r2 : Nat, f.orgRef = some r ∧ f2.orgRef = some r2 ∧ w.arrays.getD r [] = w2.arrays.getD r2 []

theorem getD_set_self {α : Type} (l : List α) (i : Nat) (a d : α) (h : i < l.length) : (l.set i a).getD i d = a := by
  rw [List.getD_eq_getElem?_getD, List.getElem?_set_self h]; rfl

theorem forestStep_sim {data : List (List K)} {F i : Nat} {f f2 : Forest K G} {w w2 : World K G} (h : LabelSim f w f2 w2) :
    EndSame (fun a b => a.1 = b.1 ∧ LabelSim a.2.1 a.2.2 b.2.1 b.2.2) (forestStep R mem data F i f w) (forestStep R mem data F i f2 w2) := by
  obtain ⟨heq, hg, hb, hp⟩ := h
  generalize ho : f2.orgRef = o2 at *
  generalize hn : f2.newRef = n2 at *
  clear ho hn
  subst heq
  have htc : ({ f with orgRef := o2, newRef := n2 } : Forest K G).treeCfg = f.treeCfg := rfl
  unfold forestStep
  dsimp only
  rw [htc, hg]
  cases hs : subsets R f.rng data.length F f.cfg with
  | error e => rfl
  | ok q =>
    obtain ⟨rows, feats, g1⟩ := q
    dsimp only
    by_cases hsp : spent f.remaining = true
    · rw [if_pos hsp, if_pos hsp]
      exact ⟨rfl, rfl, hg, hb, hp⟩
    rw [if_neg hsp, if_neg hsp]
    -- the array that is read
    obtain ⟨ref, ref2, e1, e2, e3⟩ : ∃ ref ref2 : Nat, (if f.cfg.boosting = true then f.newRef else f.orgRef) = some ref ∧
        (if f.cfg.boosting = true then n2 else o2) = some ref2 ∧ w.arrays.getD ref [] = w2.arrays.getD ref2 [] := by
      by_cases hc : f.cfg.boosting = true
      · obtain ⟨r, r2, a1, a2, _, _, a5⟩ := hb hc
        exact ⟨r, r2, by rw [if_pos hc]; exact a1, by rw [if_pos hc]; exact a2, a5⟩
      · obtain ⟨r, r2, a1, a2, a5⟩ := hp (by simpa using hc)
        exact ⟨r, r2, by rw [if_neg hc]; exact a1, by rw [if_neg hc]; exact a2, a5⟩
    rw [e1, e2]
    dsimp only
    cases hbt : bootstrapIdcs R g1 data.length f.cfg rows with
    | error e => rfl
    | ok q2 =>
      obtain ⟨rows2, g2⟩ := q2
      dsimp only
      rw [← e3]
      cases hti : Tree.init R f.treeCfg data (w.arrays.getD ref []) f.discrete f.remaining (R.randint w.glob.np maxSeed).1 (some rows2)
          (some feats) with
      | error e => rfl
      | ok q3 =>
        obtain ⟨tree0, glob0⟩ := q3
        dsimp only
        cases htf : Tree.fit R (mem i) tree0 glob0 none none with
        | error e => rfl
        | ok q4 =>
          obtain ⟨tree, glob1⟩ := q4
          dsimp only
          by_cases hk : keepTree f.remaining tree.numQueries = true
          · rw [if_pos hk, if_pos hk]
            unfold boostStep
            dsimp only
            by_cases hc : f.cfg.boosting = true
            · obtain ⟨r, r2, a1, a2, a3, a4, a5⟩ := hb hc
              rw [if_pos hc, if_pos hc, a1, a2]
              dsimp only
              rw [← a5]
              cases hbu : boostUpdate f.cfg data tree i rows2 (w.arrays.getD r []) with
              | error e => rfl
              | ok q5 =>
                obtain ⟨arr, tree'⟩ := q5
                dsimp only
                refine ⟨rfl, rfl, rfl, fun _ => ⟨r, r2, rfl, rfl, ?_, ?_, ?_⟩, fun hf => absurd hc (by rw [show f.cfg.boosting = false from hf]; exact Bool.false_ne_true)⟩
                · simpa using a3
                · simpa using a4
                · show (w.arrays.set r arr).getD r [] = (w2.arrays.set r2 arr).getD r2 []
                  rw [getD_set_self _ _ _ _ a3, getD_set_self _ _ _ _ a4]
            · rw [if_neg hc, if_neg hc]
              exact ⟨rfl, rfl, rfl, fun ht => absurd ht hc, hp⟩
          · rw [if_neg hk, if_neg hk]
            exact ⟨rfl, rfl, rfl, hb, hp⟩

theorem forestLoop_sim {data : List (List K)} {F : Nat} (is : List Nat) {f f2 : Forest K G} {w w2 : World K G} (h : LabelSim f w f2 w2) :
    EndSame (fun a b => LabelSim a.1 a.2 b.1 b.2) (forestLoop R mem data F is f w) (forestLoop R mem data F is f2 w2) := by
  induction is generalizing f f2 w w2 with
  | nil => exact h
  | cons i is ih =>
    have h1 := forestStep_sim (R := R) (mem := mem) (data := data) (F := F) (i := i) h
    unfold forestLoop
    cases e1 : forestStep R mem data F i f w with
    | error e =>
      cases e2 : forestStep R mem data F i f2 w2 with
      | error e' => rw [e1, e2] at h1; exact h1
      | ok q => rw [e1, e2] at h1; exact h1.elim
    | ok q =>
      cases e2 : forestStep R mem data F i f2 w2 with
      | error e' => rw [e1, e2] at h1; exact h1.elim
      | ok q2 =>
        rw [e1, e2] at h1
        obtain ⟨b, f', w'⟩ := q
        obtain ⟨b2, f2', w2'⟩ := q2
        obtain ⟨hb, hs⟩ := h1
        dsimp only at hb hs
        subst hb
        cases b with
        | false => exact hs
        | true =>
          dsimp only
          rw [show f2'.remaining = f'.remaining from by rw [hs.eq]]
          split_ifs
          · exact ih hs
          · rfl

/-- The state of training at the beginning: the same forest but for the place of the targets, which hold the same numbers. -/
structure StartSim (f : Forest K G) (w : World K G) (f2 : Forest K G) (w2 : World K G) : Prop where
  eq : f2 = { f with orgRef := f2.orgRef, newRef := f2.newRef }
  glob : w2.glob = w.glob
  org : ∃ r r2 : Nat, f.orgRef = some r ∧ f2.orgRef = some r2 ∧ w.arrays.getD r [] = w2.arrays.getD r2 []
  new : ∃ r r2 : Nat, f.newRef = some r ∧ f2.newRef = some r2 ∧ r < w.arrays.length ∧ r2 < w2.arrays.length ∧
    w.arrays.getD r [] = w2.arrays.getD r2 []

theorem getD_append_at {α : Type} (l l' : List α) (i : Nat) (d : α) : (l ++ l').getD (l.length + i) d = l'.getD i d := by
  rw [List.getD_eq_getElem?_getD, List.getElem?_append_right (Nat.le_add_right _ _), Nat.add_sub_cancel_left, ← List.getD_eq_getElem?_getD]

/-- Training reads the numbers in the target array, the generators and nothing else of the process. -/
theorem Forest_fit_sim {f f2 : Forest K G} {w w2 : World K G} (h : StartSim f w f2 w2) :
    EndSame (fun a b => LabelSim a.1 a.2 b.1 b.2) (Forest.fit R mem f w none none) (Forest.fit R mem f2 w2 none none) := by
  obtain ⟨heq, hg, ⟨a, a2, ha, ha2, hac⟩, ⟨b, b2, hb, hb2, hbl, hbl2, hbc⟩⟩ := h
  generalize f2.orgRef = o2 at *
  generalize f2.newRef = n2 at *
  subst heq ha2 hb2
  unfold Forest.fit
  simp only [bothOrNeither]
  cases hd : f.data with
  | none => rfl
  | some d =>
    cases d with
    | nil => rfl
    | cons row rows =>
      dsimp only
      unfold fitTargets
      dsimp only
      by_cases hc : f.cfg.isCls = true
      · rw [if_pos hc, if_pos hc, ha, hb]
        dsimp only
        rw [← hac, ← hbc]
        cases hm : maybeDiscrete f.cfg.makeDiscrete (row :: rows) f.discrete with
        | error e => rfl
        | ok dd =>
          dsimp only
          have key : ∀ (P Q : List K), LabelSim
              ({ f with orgRef := some w.arrays.length, newRef := some (w.arrays.length + 1), discrete := dd } : Forest K G)
              { w with arrays := w.arrays ++ [P, Q] }
              ({ f with orgRef := some w2.arrays.length, newRef := some (w2.arrays.length + 1), discrete := dd } : Forest K G)
              { w2 with arrays := w2.arrays ++ [P, Q] } := by
            intro P Q
            refine ⟨rfl, hg, fun _ => ⟨_, _, rfl, rfl, by simp, by simp, ?_⟩, fun _ => ⟨_, _, rfl, rfl, ?_⟩⟩
            · dsimp only
              rw [getD_append_at, getD_append_at]
            · have e1 := getD_append_at w.arrays [P, Q] 0 []
              have e2 := getD_append_at w2.arrays [P, Q] 0 []
              rw [Nat.add_zero] at e1 e2
              dsimp only
              rw [e1, e2]
          cases hp : f.cfg.precompMinmax <;> cases ho : f.cfg.oobScore <;> simp only [ho, Bool.false_eq_true, if_true, if_false] <;>
            refine forestLoop_sim _ ?_ <;>
            (obtain ⟨k1, k2, k3, k4⟩ := key ((w.arrays.getD a []).map truncInt) ((w.arrays.getD b []).map truncInt)
             exact ⟨by first | rfl | simp only [hd], k2, k3, k4⟩)
      · rw [if_neg hc, if_neg hc]
        dsimp only
        cases hm : maybeDiscrete f.cfg.makeDiscrete (row :: rows) f.discrete with
        | error e => rfl
        | ok dd =>
          dsimp only
          cases hp : f.cfg.precompMinmax <;> cases ho : f.cfg.oobScore <;> simp only [ho, Bool.false_eq_true, if_true, if_false] <;>
            refine forestLoop_sim _ ?_ <;>
            exact ⟨by first | rfl | simp only [hd], hg, fun _ => ⟨b, b2, hb, rfl, hbl, hbl2, hbc⟩, fun _ => ⟨a, a2, ha, rfl, hac⟩⟩

end FF
