import Verif.Proof.SGNear
import Verif.Proof.DTTSelect
/-! Sums over pairs of cells, regrouped by pairs of particles. -/
namespace Shamrock.SelfGrav

open Shamrock Shamrock.Fmm

theorem prodL_filter (i : Nat) (B : List Nat) : ∀ A : List Nat, A.Nodup →
    (prodL A B).filter (fun x => decide (x.1 = i)) = if i ∈ A then B.map fun b => (i, b) else [] := by
  intro A
  induction A with
  | nil => intro _; rfl
  | cons a A ih =>
    intro h
    rw [List.nodup_cons] at h
    have e : prodL (a :: A) B = B.map (fun b => (a, b)) ++ prodL A B := rfl
    rw [e, List.filter_append, ih h.2]
    by_cases ha : a = i
    · subst ha
      rw [if_neg h.1, if_pos (by simp), List.append_nil, List.filter_eq_self]
      intro x hx
      obtain ⟨b, _, rfl⟩ := List.mem_map.1 hx
      simp
    · have h0 : (B.map fun b => (a, b)).filter (fun x => decide (x.1 = i)) = [] := by
        rw [List.filter_eq_nil_iff]
        intro x hx
        obtain ⟨b, _, rfl⟩ := List.mem_map.1 hx
        simpa using ha
      rw [h0, List.nil_append]
      by_cases hi : i ∈ A
      · rw [if_pos hi, if_pos (by simp [hi])]
      · rw [if_neg hi, if_neg (by simp only [List.mem_cons, not_or]; exact ⟨fun h => ha h.symm, hi⟩)]

theorem prodL_mem {A B : List Nat} {i j : Nat} : (i, j) ∈ prodL A B ↔ i ∈ A ∧ j ∈ B := by
  unfold prodL
  rw [List.mem_flatMap]
  constructor
  · rintro ⟨a, ha, h⟩
    obtain ⟨b, hb, he⟩ := List.mem_map.1 h
    rw [Prod.mk.injEq] at he
    obtain ⟨rfl, rfl⟩ := he
    exact ⟨ha, hb⟩
  · rintro ⟨h1, h2⟩
    exact ⟨i, h1, List.mem_map.2 ⟨j, h2, rfl⟩⟩

theorem prodL_nodup {B : List Nat} (hB : B.Nodup) : ∀ A : List Nat, A.Nodup → (prodL A B).Nodup := by
  intro A
  induction A with
  | nil => intro _; exact List.nodup_nil
  | cons a A ih =>
    intro h
    rw [List.nodup_cons] at h
    have e : prodL (a :: A) B = B.map (fun b => (a, b)) ++ prodL A B := rfl
    rw [e, List.nodup_append]
    refine ⟨hB.map fun x y h => (Prod.mk.inj h).2, ih h.2, ?_⟩
    intro x hx y hy hxy
    obtain ⟨b, _, rfl⟩ := List.mem_map.1 hx
    subst hxy
    exact h.1 (prodL_mem.1 hy).1

/-- If the rectangles of a list partition the pairs of `n` indices, each pair has its rectangle, and sums over the rectangles of a row are
sums over the row. -/
theorem pair_sum {E : Type} [Nonempty E] (A B : E → List Nat) (L : List E) (n : Nat) (hA : ∀ e ∈ L, (A e).Nodup)
    (hcov : (L.flatMap fun e => prodL (A e) (B e)).Perm (prodL (List.range n) (List.range n))) :
    ∃ W : Nat → Nat → E, (∀ i < n, ∀ j < n, W i j ∈ L ∧ i ∈ A (W i j) ∧ j ∈ B (W i j)) ∧ ∀ (f : E → Nat → Nat → ℝ), ∀ i < n,
      ((L.filter fun e => decide (i ∈ A e)).map fun e => ((B e).map (f e i)).sum).sum = ((List.range n).map fun j => f (W i j) i j).sum := by
  classical
  have hex : ∀ i j, ∃ e, i < n → j < n → e ∈ L ∧ i ∈ A e ∧ j ∈ B e := by
    intro i j
    by_cases h : i < n ∧ j < n
    · have : (i, j) ∈ prodL (List.range n) (List.range n) := prodL_mem.2 ⟨List.mem_range.2 h.1, List.mem_range.2 h.2⟩
      obtain ⟨e, he, h'⟩ := List.mem_flatMap.1 (hcov.mem_iff.2 this)
      exact ⟨e, fun _ _ => ⟨he, prodL_mem.1 h'⟩⟩
    · exact ⟨Classical.arbitrary E, fun h1 h2 => absurd ⟨h1, h2⟩ h⟩
  choose W hW using hex
  refine ⟨W, fun i hi j hj => hW i j hi hj, ?_⟩
  intro f i hi
  have hN : (prodL (List.range n) (List.range n)).Nodup := prodL_nodup List.nodup_range _ List.nodup_range
  obtain ⟨Lst, hL⟩ : ∃ Lst : List (E × (Nat × Nat)), Lst = L.flatMap fun e => (prodL (A e) (B e)).map fun x => (e, x) := ⟨_, rfl⟩
  have hsnd : Lst.map (·.2) = L.flatMap fun e => prodL (A e) (B e) := by
    rw [hL, List.map_flatMap]
    apply flatMap_congr'
    intro e _
    rw [List.map_map]
    exact List.map_id _
  have hperm : (Lst.map (·.2)).Perm (prodL (List.range n) (List.range n)) := by rw [hsnd]; exact hcov
  have hinj := List.inj_on_of_nodup_map (hperm.nodup_iff.2 hN)
  have hmem : ∀ e i j, (e, (i, j)) ∈ Lst ↔ e ∈ L ∧ i ∈ A e ∧ j ∈ B e := by
    intro e i j
    rw [hL, List.mem_flatMap]
    constructor
    · rintro ⟨e', h1, h2⟩
      obtain ⟨x, hx, he⟩ := List.mem_map.1 h2
      rw [Prod.mk.injEq] at he
      obtain ⟨rfl, rfl⟩ := he
      exact ⟨h1, prodL_mem.1 hx⟩
    · rintro ⟨h1, h2⟩
      exact ⟨e, h1, List.mem_map.2 ⟨(i, j), prodL_mem.2 h2, rfl⟩⟩
  have hfst : ∀ x ∈ Lst, x.1 = W x.2.1 x.2.2 := by
    rintro ⟨e, a, b⟩ hx
    have hab : (a, b) ∈ prodL (List.range n) (List.range n) := hperm.mem_iff.1 (List.mem_map.2 ⟨_, hx, rfl⟩)
    have hab := prodL_mem.1 hab
    have := hW a b (List.mem_range.1 hab.1) (List.mem_range.1 hab.2)
    have := hinj hx ((hmem _ _ _).2 this) rfl
    exact congrArg Prod.fst this
  have hleft : ∀ L : List E, (∀ e ∈ L, (A e).Nodup) → ((L.filter fun e => decide (i ∈ A e)).map fun e => ((B e).map (f e i)).sum).sum =
      (((L.flatMap fun e => (prodL (A e) (B e)).map fun x => (e, x)).filter fun x => decide (x.2.1 = i)).map fun x => f x.1 x.2.1 x.2.2).sum := by
    intro L
    induction L with
    | nil => intro _; rfl
    | cons e L ih =>
      intro hA
      have hA' := hA e (by simp)
      rw [List.flatMap_cons, List.filter_append, List.map_append, List.sum_append, ← ih (fun x hx => hA x (by simp [hx]))]
      have h1 : ((prodL (A e) (B e)).map fun x => (e, x)).filter (fun x => decide (x.2.1 = i)) =
          ((prodL (A e) (B e)).filter fun x => decide (x.1 = i)).map fun x => (e, x) := by
        rw [List.filter_map]; rfl
      rw [h1, prodL_filter i (B e) _ hA', List.filter_cons]
      by_cases hi : i ∈ A e
      · rw [if_pos hi, if_pos (by simpa using hi), List.map_cons, List.sum_cons, List.map_map, List.map_map]
        rfl
      · rw [if_neg hi, if_neg (by simpa using hi)]
        simp
  rw [hleft L hA, ← hL]
  have hmid : ((Lst.filter fun x => decide (x.2.1 = i)).map fun x => f x.1 x.2.1 x.2.2).sum =
      (((Lst.map (·.2)).filter fun x => decide (x.1 = i)).map fun x => f (W x.1 x.2) x.1 x.2).sum := by
    rw [List.filter_map, List.map_map]
    congr 1
    apply List.map_congr_left
    intro x hx
    have := hfst x (List.mem_filter.1 hx).1
    show f x.1 _ _ = f (W x.2.1 x.2.2) _ _
    rw [this]
  rw [hmid, ((hperm.filter _).map _).sum_eq, prodL_filter i _ _ List.nodup_range, if_pos (List.mem_range.2 hi), List.map_map]
  rfl

end Shamrock.SelfGrav
