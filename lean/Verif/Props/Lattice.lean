import Verif.Proof.Lattice
import Verif.Props.Setup
/-! **C67.** The crystal lattices: spacing, coverage of the box, periodicity. -/
namespace Shamrock.Setup

open Classical in
/-- The lattice setups of the user (`make_generator_lattice_hcp` / `_cubic`): a box and a spacing; GeneratorLatticeHCP.hpp:50-60, 88-93. -/
noncomputable def boxDesc (E : Type) (disc : Bool) (pt : Int → Int → Int → ℝ × ℝ × ℝ) (bmin bmax : ℝ × ℝ × ℝ) (b : (Int × Int × Int) × (Int × Int × Int)) : Desc (ℝ × ℝ × ℝ) E :=
  .lattice disc pt (fun p => decide (inBoxC p bmin bmax)) b.1 b.2

/-- **C67, spacing.** Two different sites of the HCP lattice are at least `2 dr` apart. -/
theorem C67_spacing (dr : ℝ) (i j k i' j' k' : Int) (h : (i, j, k) ≠ (i', j', k')) : 4 * dr ^ 2 ≤ dist2 (hcp dr i j k) (hcp dr i' j' k') :=
  hcp_spacing dr i j k i' j' k' fun e => h (by rw [e.1, e.2.1, e.2.2])

/-- The bound is attained: neighbours along x, and between layers. -/
example (dr : ℝ) : dist2 (hcp dr 0 0 0) (hcp dr 1 0 0) = 4 * dr ^ 2 ∧ dist2 (hcp dr 0 0 0) (hcp dr 0 0 (-1)) = 4 * dr ^ 2 ∧ dist2 (hcp dr 0 0 0) (hcp dr 0 1 0) = 4 * dr ^ 2 := by
  simp only [hcp_dist]
  refine ⟨?_, ?_, ?_⟩ <;> norm_num <;> ring

/-- **C67, cubic spacing.** -/
theorem C67_cubic_spacing (dr : ℝ) (i j k i' j' k' : Int) (h : (i, j, k) ≠ (i', j', k')) : dr ^ 2 ≤ dist2 (cubic dr i j k) (cubic dr i' j' k') :=
  cubic_spacing dr i j k i' j' k' fun e => h (by rw [e.1, e.2.1, e.2.2])

theorem s_bounds (n : Nat) : ((n % 2 : Nat) : ℝ) ≤ 1 ∧ (0 : ℝ) ≤ ((n % 2 : Nat) : ℝ) := by
  have : n % 2 ≤ 1 := by omega
  exact ⟨by exact_mod_cast this, Nat.cast_nonneg _⟩

/-- **C67, index bounds.** Every site of the HCP lattice inside the box has its indices inside the bounds. -/
theorem C67_hcp_bounds (dr : ℝ) (hdr : 0 < dr) (bmin bmax : ℝ × ℝ × ℝ) (a b : Int × Int × Int) (h : hcpBounds dr bmin bmax = some (a, b)) (i j k : Int)
    (hin : inBoxC (hcp dr i j k) bmin bmax) : (i, j, k) ∈ idxBox a b := by
  rw [mem_idxBox]
  unfold hcpBounds at h
  simp only [Option.bind_eq_bind, Option.bind_eq_some_iff, Option.some.injEq, Prod.mk.injEq] at h
  obtain ⟨x0, hx0, y0, hy0, z0, hz0, x1, hx1, y1, hy1, z1, hz1, rfl, rfl⟩ := h
  obtain ⟨⟨ax, bx⟩, ⟨ay, by'⟩, ⟨az, bz⟩⟩ := hin
  simp only [hcp] at ax bx ay by' az bz
  have s1 := s_bounds (j + k).natAbs
  have s2 := s_bounds k.natAbs
  generalize (((j + k).natAbs % 2 : Nat) : ℝ) = s at *
  generalize ((k.natAbs % 2 : Nat) : ℝ) = q at *
  have h3 := sqrt3_pos
  have h6 := sqrt6_pos
  refine ⟨⟨(toI32_lo _ _ hx0).2 i ?_, (toI32_hi _ _ hx1).2 i ?_⟩, ⟨(toI32_lo _ _ hy0).2 j ?_, (toI32_hi _ _ hy1).2 j ?_⟩, ⟨(toI32_lo _ _ hz0).2 k ?_, (toI32_hi _ _ hz1).2 k ?_⟩⟩
  · have : bmin.1 / 2 / dr ≤ i + s / 2 := by rw [div_le_iff₀ hdr, div_le_iff₀ (by norm_num)]; linarith
    linarith
  · have : i + s / 2 < bmax.1 / 2 / dr := by rw [lt_div_iff₀ hdr, lt_div_iff₀ (by norm_num)]; linarith
    linarith
  · have : bmin.2.1 / √3 / dr ≤ j + q / 3 := by rw [div_le_iff₀ hdr, div_le_iff₀ h3]; linarith
    linarith
  · have : j + q / 3 < bmax.2.1 / √3 / dr := by rw [lt_div_iff₀ hdr, lt_div_iff₀ h3]; linarith
    linarith
  · have : bmin.2.2 / (2 * √6 / 3) / dr ≤ k := by rw [div_le_iff₀ hdr, div_le_iff₀ (by positivity)]; linarith
    linarith
  · rw [lt_div_iff₀ hdr, lt_div_iff₀ (by positivity)]; linarith

/-- **C67, index bounds, cubic.** -/
theorem C67_cubic_bounds (dr : ℝ) (hdr : 0 < dr) (bmin bmax : ℝ × ℝ × ℝ) (a b : Int × Int × Int) (h : cubicBounds dr bmin bmax = some (a, b)) (i j k : Int)
    (hin : inBoxC (cubic dr i j k) bmin bmax) : (i, j, k) ∈ idxBox a b := by
  rw [mem_idxBox]
  unfold cubicBounds at h
  simp only [Option.bind_eq_bind, Option.bind_eq_some_iff, Option.some.injEq, Prod.mk.injEq] at h
  obtain ⟨x0, hx0, y0, hy0, z0, hz0, x1, hx1, y1, hy1, z1, hz1, rfl, rfl⟩ := h
  obtain ⟨⟨ax, bx⟩, ⟨ay, by'⟩, ⟨az, bz⟩⟩ := hin
  simp only [cubic] at ax bx ay by' az bz
  refine ⟨⟨(toI32_lo _ _ hx0).2 i ?_, (toI32_hi _ _ hx1).2 i ?_⟩, ⟨(toI32_lo _ _ hy0).2 j ?_, (toI32_hi _ _ hy1).2 j ?_⟩, ⟨(toI32_lo _ _ hz0).2 k ?_, (toI32_hi _ _ hz1).2 k ?_⟩⟩
  · have : bmin.1 / dr ≤ i := by rw [div_le_iff₀ hdr]; linarith
    linarith
  · rw [lt_div_iff₀ hdr]; linarith
  · have : bmin.2.1 / dr ≤ j := by rw [div_le_iff₀ hdr]; linarith
    linarith
  · rw [lt_div_iff₀ hdr]; linarith
  · have : bmin.2.2 / dr ≤ k := by rw [div_le_iff₀ hdr]; linarith
    linarith
  · rw [lt_div_iff₀ hdr]; linarith

theorem boxDesc_parts {E : Type} (eng : E → E × Nat) (disc : Bool) (pt : Int → Int → Int → ℝ × ℝ × ℝ) (bmin bmax : ℝ × ℝ × ℝ) (a b : Int × Int × Int)
    (hinj : ∀ i j k i' j' k', pt i j k = pt i' j' k' → i = i' ∧ j = j' ∧ k = k')
    (hcov : ∀ i j k, inBoxC (pt i j k) bmin bmax → (i, j, k) ∈ idxBox a b) :
    ((boxDesc E disc pt bmin bmax (a, b)).parts eng).Nodup ∧
      ∀ p, p ∈ (boxDesc E disc pt bmin bmax (a, b)).parts eng ↔ inBoxC p bmin bmax ∧ ∃ i j k : Int, p = pt i j k := by
  constructor
  · refine List.Nodup.filter _ (List.Nodup.map ?_ (idxBox_nodup a b))
    rintro ⟨i, j, k⟩ ⟨i', j', k'⟩ h
    obtain ⟨rfl, rfl, rfl⟩ := hinj _ _ _ _ _ _ h
    rfl
  · intro p
    simp only [boxDesc, Desc.parts, List.mem_filter, List.mem_map, decide_eq_true_eq, Prod.exists]
    constructor
    · rintro ⟨⟨i, j, k, _, rfl⟩, hb⟩; exact ⟨hb, i, j, k, rfl⟩
    · rintro ⟨hb, i, j, k, rfl⟩; exact ⟨⟨i, j, k, hcov i j k hb, rfl⟩, hb⟩

/-- **C67, the HCP generator.** The particles of an HCP setup are exactly the sites of the infinite lattice inside the box `[bmin, bmax)`, each once. (That any
number of ranks pushes exactly these is `C66_setup`.) -/
theorem C67_hcp_generator {E : Type} (eng : E → E × Nat) (disc : Bool) (dr : ℝ) (hdr : 0 < dr) (bmin bmax : ℝ × ℝ × ℝ) (b : (Int × Int × Int) × (Int × Int × Int))
    (h : hcpBounds dr bmin bmax = some b) :
    ((boxDesc E disc (hcp dr) bmin bmax b).parts eng).Nodup ∧
      ∀ p, p ∈ (boxDesc E disc (hcp dr) bmin bmax b).parts eng ↔ inBoxC p bmin bmax ∧ ∃ i j k : Int, p = hcp dr i j k :=
  boxDesc_parts eng disc (hcp dr) bmin bmax b.1 b.2 (fun i j k i' j' k' e => hcp_inj dr (ne_of_gt hdr) i j k i' j' k' e)
    (fun i j k hin => C67_hcp_bounds dr hdr bmin bmax b.1 b.2 h i j k hin)

/-- **C67, the cubic generator.** -/
theorem C67_cubic_generator {E : Type} (eng : E → E × Nat) (disc : Bool) (dr : ℝ) (hdr : 0 < dr) (bmin bmax : ℝ × ℝ × ℝ) (b : (Int × Int × Int) × (Int × Int × Int))
    (h : cubicBounds dr bmin bmax = some b) :
    ((boxDesc E disc (cubic dr) bmin bmax b).parts eng).Nodup ∧
      ∀ p, p ∈ (boxDesc E disc (cubic dr) bmin bmax b).parts eng ↔ inBoxC p bmin bmax ∧ ∃ i j k : Int, p = cubic dr i j k := by
  refine boxDesc_parts eng disc (cubic dr) bmin bmax b.1 b.2 ?_ (fun i j k hin => C67_cubic_bounds dr hdr bmin bmax b.1 b.2 h i j k hin)
  intro i j k i' j' k' e
  simp only [cubic, Prod.mk.injEq, mul_eq_mul_left_iff, Int.cast_inj, ne_of_gt hdr, or_false] at e
  exact e

/-- **C67, periodic box.** `get_periodic_box` throws exactly when `can_make_periodic_box` is false; otherwise the sites inside the box are exactly those of the index
box, and moving the lattice by any whole number of box lengths along each axis gives the same lattice. -/
theorem C67_periodic (dr : ℝ) (hdr : 0 < dr) (cmin cmax : Int × Int × Int) :
    (canMakePeriodic cmin cmax = false → periodicBox dr cmin cmax = .throws) ∧
    (canMakePeriodic cmin cmax = true → ∃ lo hi, periodicBox dr cmin cmax = .ok (lo, hi) ∧
      (∀ i j k : Int, inBoxC (hcp dr i j k) lo hi ↔ (i, j, k) ∈ idxBox cmin cmax) ∧
      ∀ i j k a b c : Int, hcp dr (i + a * (cmax.1 - cmin.1)) (j + b * (cmax.2.1 - cmin.2.1)) (k + c * (cmax.2.2 - cmin.2.2)) =
        ((hcp dr i j k).1 + a * (hi.1 - lo.1), (hcp dr i j k).2.1 + b * (hi.2.1 - lo.2.1), (hcp dr i j k).2.2 + c * (hi.2.2 - lo.2.2))) := by
  constructor
  · intro h; unfold periodicBox; rw [if_neg (by simp [h])]
  · intro h
    refine ⟨_, _, by unfold periodicBox; rw [if_pos h], ?_, ?_⟩
    · intro i j k
      rw [mem_idxBox]
      unfold inBoxC hcp
      have e1 : (j + k).natAbs % 2 ≤ 1 := by omega
      have e2 : k.natAbs % 2 ≤ 1 := by omega
      generalize (j + k).natAbs % 2 = s at *
      generalize k.natAbs % 2 = q at *
      simp only
      have h3 := sqrt3_pos
      have h6 := sqrt6_pos
      have x1 : ∀ c : Int, 2 * (c : ℝ) * dr ≤ dr * (2 * i + (s : ℝ)) ↔ c ≤ i := fun c => by
        rw [mul_comm, mul_le_mul_iff_right₀ hdr]
        have : (2 * (c : ℝ) ≤ 2 * i + (s : ℝ)) ↔ (2 * c ≤ 2 * i + (s : Int)) := by exact_mod_cast Iff.rfl
        rw [this]; omega
      have x2 : ∀ c : Int, √3 * (c : ℝ) * dr ≤ dr * (√3 * (j + 1 / 3 * (q : ℝ))) ↔ c ≤ j := fun c => by
        rw [mul_comm, mul_le_mul_iff_right₀ hdr, mul_le_mul_iff_right₀ h3]
        have : ((c : ℝ) ≤ j + 1 / 3 * (q : ℝ)) ↔ (3 * c ≤ 3 * j + (q : Int)) := by
          rw [← Int.cast_le (R := ℝ)]; push_cast
          constructor <;> intro <;> linarith
        rw [this]; omega
      have x3 : ∀ c : Int, 2 * √6 * (c : ℝ) / 3 * dr ≤ dr * (2 * √6 * (k : ℝ) / 3) ↔ c ≤ k := fun c => by
        rw [mul_comm, mul_le_mul_iff_right₀ hdr, div_le_div_iff_of_pos_right (by norm_num), mul_le_mul_iff_right₀ (by positivity)]
        exact Int.cast_le
      have e1 : ∀ c : Int, dr * (2 * i + (s : ℝ)) < 2 * (c : ℝ) * dr ↔ i < c := fun c => by rw [← not_le, x1, not_le]
      have e2 : ∀ c : Int, dr * (√3 * (j + 1 / 3 * (q : ℝ))) < √3 * (c : ℝ) * dr ↔ j < c := fun c => by rw [← not_le, x2, not_le]
      have e3 : ∀ c : Int, dr * (2 * √6 * (k : ℝ) / 3) < 2 * √6 * (c : ℝ) / 3 * dr ↔ k < c := fun c => by rw [← not_le, x3, not_le]
      rw [x1, x2, x3, e1, e2, e3]
    · intro i j k a b c
      have hm := (canMake_iff cmin cmax).1 h
      rw [hcp_shift _ _ _ _ _ _ _ (by rw [Int.mul_emod, hm.2.1]; simp) (by rw [Int.mul_emod, hm.2.2]; simp)]
      push_cast
      refine Prod.ext ?_ (Prod.ext ?_ ?_) <;> simp only <;> ring

example : canMakePeriodic (-3, -4, 1) (2, 4, 3) = true ∧ canMakePeriodic (-3, -4, 1) (2, 3, 3) = false := by decide

/-- **C67, particles of a periodic box.** In a box from `get_periodic_box` the HCP setup makes exactly one particle per index triple. -/
theorem C67_periodic_fill {E : Type} (eng : E → E × Nat) (disc : Bool) (dr : ℝ) (hdr : 0 < dr) (cmin cmax : Int × Int × Int) (lo hi : ℝ × ℝ × ℝ)
    (hb : periodicBox dr cmin cmax = .ok (lo, hi)) (b : (Int × Int × Int) × (Int × Int × Int)) (h : hcpBounds dr lo hi = some b) :
    ((boxDesc E disc (hcp dr) lo hi b).parts eng).Perm ((idxBox cmin cmax).map fun p => hcp dr p.1 p.2.1 p.2.2) ∧
      ((boxDesc E disc (hcp dr) lo hi b).parts eng).length = (cmax.1 - cmin.1).toNat * (cmax.2.1 - cmin.2.1).toNat * (cmax.2.2 - cmin.2.2).toNat := by
  obtain ⟨g1, g2⟩ := C67_hcp_generator eng disc dr hdr lo hi b h
  have hcan : canMakePeriodic cmin cmax = true := by
    by_contra hn
    rw [(C67_periodic dr hdr cmin cmax).1 (by simpa using hn)] at hb
    cases hb
  obtain ⟨lo', hi', e, hin, _⟩ := (C67_periodic dr hdr cmin cmax).2 hcan
  rw [hb] at e
  cases e
  have hperm : ((boxDesc E disc (hcp dr) lo hi b).parts eng).Perm ((idxBox cmin cmax).map fun p => hcp dr p.1 p.2.1 p.2.2) := by
    rw [List.perm_ext_iff_of_nodup g1]
    · intro p
      rw [g2]
      simp only [List.mem_map, Prod.exists]
      constructor
      · rintro ⟨hp, i, j, k, rfl⟩; exact ⟨i, j, k, (hin i j k).1 hp, rfl⟩
      · rintro ⟨i, j, k, hm, rfl⟩; exact ⟨(hin i j k).2 hm, i, j, k, rfl⟩
    · refine List.Nodup.map ?_ (idxBox_nodup _ _)
      rintro ⟨i, j, k⟩ ⟨i', j', k'⟩ he
      obtain ⟨rfl, rfl, rfl⟩ := hcp_inj dr (ne_of_gt hdr) _ _ _ _ _ _ he
      rfl
  refine ⟨hperm, ?_⟩
  have hr : ∀ n v : Nat, (List.replicate n v).sum = n * v := by
    intro n v
    induction n with
    | zero => simp
    | succ n ih => rw [List.replicate_succ, List.sum_cons, ih, Nat.succ_mul]; omega
  rw [hperm.length_eq, List.length_map]
  simp only [idxBox, List.length_flatMap, List.length_map, ints_length, List.map_const', hr]
  rw [Nat.mul_comm, Nat.mul_comm (cmax.2.1 - cmin.2.1).toNat]

/-- **C67, ideal box.** For any box `bmin ≤ bmax` whose index bounds fit i32, `get_ideal_hcp_box` does not throw, and returns a box that contains the one asked for
and is a periodic box of the lattice. -/
theorem C67_ideal (dr : ℝ) (hdr : 0 < dr) (bmin bmax : ℝ × ℝ × ℝ) (hle : bmin.1 ≤ bmax.1) (b : (Int × Int × Int) × (Int × Int × Int)) (h : hcpBounds dr bmin bmax = some b) :
    ∃ lo hi cmin cmax, idealBox dr bmin bmax = .ok (lo, hi) ∧ canMakePeriodic cmin cmax = true ∧ periodicBox dr cmin cmax = .ok (lo, hi) ∧
      (lo.1 < bmin.1 ∧ lo.2.1 < bmin.2.1 ∧ lo.2.2 < bmin.2.2) ∧ (bmax.1 < hi.1 ∧ bmax.2.1 < hi.2.1 ∧ bmax.2.2 < hi.2.2) := by
  have h' := h
  unfold hcpBounds at h'
  simp only [Option.bind_eq_bind, Option.bind_eq_some_iff, Option.some.injEq] at h'
  obtain ⟨x0, hx0, y0, hy0, z0, hz0, x1, hx1, y1, hy1, z1, hz1, rfl⟩ := h'
  have h3 := sqrt3_pos
  have h6 := sqrt6_pos
  have lx := (toI32_lo _ _ hx0).1
  have ly := (toI32_lo _ _ hy0).1
  have lz := (toI32_lo _ _ hz0).1
  have ux := (toI32_hi _ _ hx1).1
  have uy := (toI32_hi _ _ hy1).1
  have uz := (toI32_hi _ _ hz1).1
  have hw : (1 : Int) ≤ (x1 + 1) - (x0 - 1) := by
    have : bmin.1 / 2 / dr ≤ bmax.1 / 2 / dr := by gcongr
    have : ((x0 - 1 : Int) : ℝ) < ((x1 + 1 : Int) : ℝ) := by push_cast; linarith
    have := Int.cast_lt.1 this
    omega
  have hcan := nearest_ok (x0 - 1, y0 - 1, z0 - 1) (x1 + 1, y1 + 1, z1 + 1) hw
  refine ⟨_, _, _, _, ?_, hcan, by unfold periodicBox; rw [if_pos hcan], ?_, ?_⟩
  · unfold idealBox
    rw [h]
    simp only
    unfold periodicBox
    rw [if_pos hcan]
  · simp only [nearestPeriodic]
    push_cast
    rw [lt_div_iff₀ hdr, lt_div_iff₀ (by norm_num)] at lx
    rw [lt_div_iff₀ hdr, lt_div_iff₀ h3] at ly
    rw [lt_div_iff₀ hdr, lt_div_iff₀ (by positivity)] at lz
    exact ⟨by linarith, by linarith, by linarith⟩
  · have key : ∀ (c : Prop) [Decidable c] (t : Int), ((t + 1 : Int) : ℝ) ≤ ((if c then t + 1 + 1 else t + 1 : Int) : ℝ) := fun c _ t => by
      apply Int.cast_le.2; split <;> omega
    simp only [nearestPeriodic]
    rw [div_lt_iff₀ hdr, div_lt_iff₀ (by norm_num)] at ux
    rw [div_lt_iff₀ hdr, div_lt_iff₀ h3] at uy
    rw [div_lt_iff₀ hdr, div_lt_iff₀ (by positivity)] at uz
    refine ⟨lt_of_lt_of_le ux ?_, lt_of_lt_of_le uy ?_, lt_of_lt_of_le uz ?_⟩
    · have := key (x1 + 1 - (x0 - 1) < 2) x1
      push_cast at this ⊢
      nlinarith
    · have := key ((y1 + 1 + (y0 - 1)).tmod 2 ≠ 0) y1
      push_cast at this ⊢
      have := mul_le_mul_of_nonneg_left this (by positivity : (0 : ℝ) ≤ √3 * dr)
      linarith
    · have := key ((z1 + 1 + (z0 - 1)).tmod 2 ≠ 0) z1
      push_cast at this ⊢
      have := mul_le_mul_of_nonneg_left this (by positivity : (0 : ℝ) ≤ 2 * √6 / 3 * dr)
      linarith

theorem toI32_int (n : Int) (h1 : -(2 ^ 31) ≤ n) (h2 : n < 2 ^ 31) : toI32 (n : ℝ) = some n := by
  unfold toI32
  simp only [Int.floor_intCast, Int.ceil_intCast, ite_self]
  rw [if_pos ⟨h1, h2⟩]

/-- The index bounds of a concrete box (spacing 1, box from -4 to 6 in units of the lattice). -/
example : hcpBounds 1 (-4, -(2 * √3), 0) (6, 3 * √3, 4 * √6 / 3) = some ((-3, -3, -1), (4, 4, 3)) := by
  have h3 := sqrt3_pos
  have h6 := sqrt6_pos
  have e1 : (-4 : ℝ) / 2 / 1 = ((-2 : Int) : ℝ) := by norm_num
  have e2 : (-(2 * √3) : ℝ) / √3 / 1 = ((-2 : Int) : ℝ) := by field_simp; norm_num
  have e3 : (0 : ℝ) / (2 * √6 / 3) / 1 = ((0 : Int) : ℝ) := by norm_num
  have e4 : (6 : ℝ) / 2 / 1 = ((3 : Int) : ℝ) := by norm_num
  have e5 : (3 * √3 : ℝ) / √3 / 1 = ((3 : Int) : ℝ) := by field_simp; norm_num
  have e6 : (4 * √6 / 3 : ℝ) / (2 * √6 / 3) / 1 = ((2 : Int) : ℝ) := by field_simp; norm_num
  unfold hcpBounds
  simp only [e1, e2, e3, e4, e5, e6]
  rw [toI32_int _ (by norm_num) (by norm_num), toI32_int _ (by norm_num) (by norm_num), toI32_int _ (by norm_num) (by norm_num), toI32_int _ (by norm_num) (by norm_num)]
  rfl

/-- **Defect (minor).** `nearest_periodic_box_indices` adds one to an x width below two, once: a width of zero stays non-periodic. (The bounds of `get_box_index_bounds`
are never that narrow, see `C67_ideal`.) -/
theorem C67_nearest_defect : canMakePeriodic (nearestPeriodic (0, 0, 0) (0, 2, 2)).1 (nearestPeriodic (0, 0, 0) (0, 2, 2)).2 = false := by decide

end Shamrock.Setup
