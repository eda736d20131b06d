import Verif.Spec.Reach
import Mathlib.Data.List.Nodup
import Mathlib.Data.List.Dedup
import Mathlib.Data.List.Pairwise
import Mathlib.Data.List.GetD
import Mathlib.Data.List.Perm.Subperm

/-! # Lists of arms -/

set_option linter.unusedSectionVars false

namespace FF

theorem mem_allArms {F B : Nat} {a : Arm} : a ∈ allArms F B ↔ a.1 < F ∧ a.2 < B := by
  unfold allArms
  simp only [List.mem_flatMap, List.mem_range, List.mem_map]
  constructor
  · rintro ⟨f, hf, b, hb, rfl⟩; exact ⟨hf, hb⟩
  · rintro ⟨hf, hb⟩; exact ⟨a.1, hf, a.2, hb, rfl⟩

/-- Row-major order on arms. -/
def ArmLt (a b : Arm) : Prop := a.1 < b.1 ∨ (a.1 = b.1 ∧ a.2 < b.2)

theorem ArmLt.fst_le {a b : Arm} (h : ArmLt a b) : a.1 ≤ b.1 := by
  rcases h with h | h <;> omega

theorem ArmLt.ne {a b : Arm} (h : ArmLt a b) : a ≠ b := by
  rintro rfl
  rcases h with h | h <;> omega

theorem ArmLt.trans {a b c : Arm} (h : ArmLt a b) (h' : ArmLt b c) : ArmLt a c := by
  unfold ArmLt at *; omega

theorem ArmLt.total (a b : Arm) : ArmLt a b ∨ a = b ∨ ArmLt b a := by
  unfold ArmLt
  rcases a with ⟨a1, a2⟩
  rcases b with ⟨b1, b2⟩
  simp only [Prod.mk.injEq]
  omega

theorem pairwise_flatMap_arms (fs : List Nat) (bs : Nat → List Nat) (hf : fs.Pairwise (· < ·))
    (hb : ∀ f ∈ fs, (bs f).Pairwise (· < ·)) : (fs.flatMap (fun f => (bs f).map (fun b => ((f, b) : Arm)))).Pairwise ArmLt := by
  induction fs with
  | nil => exact List.Pairwise.nil
  | cons f fs ih =>
    rw [List.flatMap_cons, List.pairwise_append]
    rw [List.pairwise_cons] at hf
    refine ⟨?_, ih hf.2 (fun g hg => hb g (List.mem_cons_of_mem _ hg)), ?_⟩
    · rw [List.pairwise_map]
      exact (hb f List.mem_cons_self).imp (fun h => Or.inr ⟨rfl, h⟩)
    · intro a ha b hb'
      obtain ⟨x, _, rfl⟩ := List.mem_map.1 ha
      obtain ⟨g, hg, hb''⟩ := List.mem_flatMap.1 hb'
      obtain ⟨y, _, rfl⟩ := List.mem_map.1 hb''
      exact Or.inl (hf.1 g hg)

theorem allArms_sorted (F B : Nat) : (allArms F B).Pairwise ArmLt := by
  unfold allArms
  exact pairwise_flatMap_arms _ _ List.pairwise_lt_range (fun _ _ => List.pairwise_lt_range)

theorem nodup_of_sorted {l : List Arm} (h : l.Pairwise ArmLt) : l.Nodup := h.imp (fun h => h.ne)

theorem featSorted_of_sorted {l : List Arm} (h : l.Pairwise ArmLt) : FeatSorted l := h.imp (fun h => h.fst_le)

/-- The arms of a dictionary of arms, in order. -/
def flatGroups (d : List (Nat × List Nat)) : List Arm := d.flatMap (fun p => p.2.map (fun b => (p.1, b)))

/-- What `f2bin_dict` looks like while feature-sorted arms are inserted. -/
structure GroupsOf (d : List (Nat × List Nat)) (l : List Arm) : Prop where
  flat : flatGroups d = l
  keys : d.Pairwise (fun p q => p.1 < q.1)
  nonempty : ∀ p ∈ d, p.2 ≠ []

theorem flatGroups_append (d e : List (Nat × List Nat)) : flatGroups (d ++ e) = flatGroups d ++ flatGroups e := by
  simp [flatGroups]

theorem GroupsOf.insert {d : List (Nat × List Nat)} {l : List Arm} (h : GroupsOf d l) (a : Arm) (ha : ∀ x ∈ l, x.1 ≤ a.1) :
    GroupsOf (insertArm d a) (l ++ [a]) := by
  have hkey : ∀ p ∈ d, p.1 ≤ a.1 := by
    intro p hp
    obtain ⟨b, hb⟩ := List.exists_mem_of_ne_nil _ (h.nonempty p hp)
    have : ((p.1, b) : Arm) ∈ l := by
      rw [← h.flat]
      exact List.mem_flatMap.2 ⟨p, hp, List.mem_map.2 ⟨b, hb, rfl⟩⟩
    exact ha _ this
  unfold insertArm
  split_ifs with hc
  · -- the feature is the last key
    rw [List.any_eq_true] at hc
    obtain ⟨p, hp, hpa⟩ := hc
    have hpa : p.1 = a.1 := by simpa using hpa
    obtain ⟨d1, d2, rfl⟩ := List.append_of_mem hp
    have hd2 : d2 = [] := by
      cases d2 with
      | nil => rfl
      | cons q qs =>
        have h1 := h.keys
        rw [List.pairwise_append, List.pairwise_cons] at h1
        have := h1.2.1.1 q List.mem_cons_self
        have := hkey q (by simp)
        omega
    subst hd2
    have hd1 : ∀ q ∈ d1, q.1 < a.1 := by
      intro q hq
      have h1 := h.keys
      rw [List.pairwise_append] at h1
      rw [← hpa]
      exact h1.2.2 q hq p (by simp)
    have hm : d1.map (fun p => if p.1 = a.1 then (p.1, p.2 ++ [a.2]) else p) = d1 := by
      conv_rhs => rw [← List.map_id d1]
      apply List.map_congr_left
      intro q hq
      rw [if_neg (by have := hd1 q hq; omega)]; rfl
    rw [List.map_append, hm, List.map_cons, List.map_nil, if_pos hpa]
    refine ⟨?_, ?_, ?_⟩
    · rw [← h.flat, flatGroups_append, flatGroups_append, List.append_assoc]
      congr 1
      simp [flatGroups, hpa]
    · have h1 := h.keys
      rw [List.pairwise_append] at h1 ⊢
      refine ⟨h1.1, List.pairwise_singleton _ _, ?_⟩
      intro q hq r hr
      rw [List.mem_singleton] at hr
      subst hr
      exact h1.2.2 q hq p (by simp)
    · intro q hq
      rw [List.mem_append] at hq
      rcases hq with hq | hq
      · exact h.nonempty q (by simp [hq])
      · rw [List.mem_singleton] at hq
        subst hq
        simp
  · have hlt : ∀ p ∈ d, p.1 < a.1 := by
      intro p hp
      have h1 := hkey p hp
      have h2 : p.1 ≠ a.1 := by
        intro he
        apply hc
        rw [List.any_eq_true]
        exact ⟨p, hp, by simpa using he⟩
      omega
    refine ⟨?_, ?_, ?_⟩
    · rw [flatGroups_append, h.flat]; simp [flatGroups]
    · rw [List.pairwise_append]
      refine ⟨h.keys, List.pairwise_singleton _ _, ?_⟩
      intro p hp q hq
      rw [List.mem_singleton] at hq
      subst hq
      exact hlt p hp
    · intro q hq
      rw [List.mem_append] at hq
      rcases hq with hq | hq
      · exact h.nonempty q hq
      · rw [List.mem_singleton] at hq; subst hq; simp

/-- Grouping a feature-sorted list of arms and concatenating the groups gives the list back. -/
theorem groupArms_sorted {l : List Arm} (h : FeatSorted l) : GroupsOf (groupArms l) l := by
  unfold groupArms
  have : ∀ (done rest : List Arm) (d : List (Nat × List Nat)), done ++ rest = l → GroupsOf d done →
      GroupsOf (rest.foldl insertArm d) l := by
    intro done rest
    induction rest generalizing done with
    | nil => intro d he hd; rw [List.append_nil] at he; rw [← he]; exact hd
    | cons a rest ih =>
      intro d he hd
      rw [List.foldl_cons]
      apply ih (done ++ [a])
      · rw [← he]; simp
      · apply hd.insert
        intro x hx
        have h1 := h
        unfold FeatSorted at h1
        rw [← he, List.pairwise_append] at h1
        exact h1.2.2 x hx a (by simp)
  exact this [] l [] rfl ⟨rfl, List.Pairwise.nil, by simp⟩

theorem mem_flatGroups {d : List (Nat × List Nat)} {a : Arm} : a ∈ flatGroups d ↔ ∃ bins, (a.1, bins) ∈ d ∧ a.2 ∈ bins := by
  unfold flatGroups
  simp only [List.mem_flatMap, List.mem_map]
  constructor
  · rintro ⟨p, hp, b, hb, rfl⟩; exact ⟨p.2, hp, hb⟩
  · rintro ⟨bins, hp, hb⟩; exact ⟨_, hp, a.2, hb, rfl⟩

theorem GroupsOf.mem {d : List (Nat × List Nat)} {l : List Arm} (h : GroupsOf d l) {f : Nat} {bins : List Nat}
    (hd : (f, bins) ∈ d) {b : Nat} (hb : b ∈ bins) : ((f, b) : Arm) ∈ l := by
  rw [← h.flat, mem_flatGroups]
  exact ⟨bins, hd, hb⟩

theorem GroupsOf.key_iff {d : List (Nat × List Nat)} {l : List Arm} (h : GroupsOf d l) (f : Nat) :
    f ∈ d.map Prod.fst ↔ ∃ a ∈ l, a.1 = f := by
  constructor
  · intro hf
    obtain ⟨p, hp, rfl⟩ := List.mem_map.1 hf
    obtain ⟨b, hb⟩ := List.exists_mem_of_ne_nil _ (h.nonempty p hp)
    exact ⟨(p.1, b), h.mem (f := p.1) (bins := p.2) hp hb, rfl⟩
  · rintro ⟨a, ha, rfl⟩
    rw [← h.flat, mem_flatGroups] at ha
    obtain ⟨bins, hp, _⟩ := ha
    exact List.mem_map.2 ⟨_, hp, rfl⟩

theorem GroupsOf.keys_nodup {d : List (Nat × List Nat)} {l : List Arm} (h : GroupsOf d l) : (d.map Prod.fst).Nodup := by
  have := h.keys
  unfold List.Nodup
  rw [List.pairwise_map]
  exact this.imp (fun h => by omega)

/-- For row-major arms, the bins of every group are increasing. -/
theorem GroupsOf.bins_sorted {d : List (Nat × List Nat)} {l : List Arm} (h : GroupsOf d l) (hl : l.Pairwise ArmLt)
    {f : Nat} {bins : List Nat} (hd : (f, bins) ∈ d) : bins.Pairwise (· < ·) := by
  obtain ⟨d1, d2, rfl⟩ := List.append_of_mem hd
  have h1 := h.flat
  rw [flatGroups_append] at h1
  have h2 : flatGroups ((f, bins) :: d2) = bins.map (fun b => (f, b)) ++ flatGroups d2 := by simp [flatGroups]
  rw [h2] at h1
  rw [← h1, List.pairwise_append, List.pairwise_append, List.pairwise_map] at hl
  refine hl.2.1.1.imp ?_
  intro a b hab
  rcases hab with hab | hab
  · exact absurd hab (lt_irrefl _)
  · exact hab.2

/-- For arms without repeats, the bins of every group have no repeats. -/
theorem GroupsOf.bins_nodup {d : List (Nat × List Nat)} {l : List Arm} (h : GroupsOf d l) (hl : l.Nodup)
    {f : Nat} {bins : List Nat} (hd : (f, bins) ∈ d) : bins.Nodup := by
  obtain ⟨d1, d2, rfl⟩ := List.append_of_mem hd
  have h1 := h.flat
  rw [flatGroups_append] at h1
  have h2 : flatGroups ((f, bins) :: d2) = bins.map (fun b => (f, b)) ++ flatGroups d2 := by simp [flatGroups]
  rw [h2] at h1
  rw [← h1] at hl
  exact List.Nodup.of_map _ (List.nodup_append.1 (List.nodup_append.1 hl).2.1).1

theorem length_le_of_nodup_lt {l : List Nat} {n : Nat} (hn : l.Nodup) (h : ∀ b ∈ l, b < n) : l.length ≤ n := by
  have := (List.subperm_of_subset hn (fun b hb => List.mem_range.2 (h b hb))).length_le
  rwa [List.length_range] at this

/-- The number of different features among the arms. -/
def featCountOf (l : List Arm) : Nat := (l.map Prod.fst).dedup.length

theorem GroupsOf.length {d : List (Nat × List Nat)} {l : List Arm} (h : GroupsOf d l) : d.length = featCountOf l := by
  unfold featCountOf
  have hp : (d.map Prod.fst).Perm (l.map Prod.fst).dedup := by
    rw [List.perm_ext_iff_of_nodup h.keys_nodup (List.nodup_dedup _)]
    intro f
    rw [h.key_iff, List.mem_dedup, List.mem_map]
  have := hp.length_eq
  rwa [List.length_map] at this

end FF
