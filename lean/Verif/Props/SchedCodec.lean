import Verif.Props.SchedEx
import Verif.Props.Gather
/-! C37: the hypothesis about the serialization holds for the serialization of the code (C50), for layers below 2^32 bytes. -/
namespace Shamrock

theorem layerBytes_lwf : ∀ (tys : List STy) (l : PLayer (List Byte)) (n : Nat), l.LWF n →
    layerBytes tys l = (List.zipWith (fun (t : STy) (v : Nat) => 8 + (n * v * t.sz + 7) / 8 * 8) tys (l.map (·.nvar))).sum := by
  intro tys
  induction tys with
  | nil => intro l n _; rfl
  | cons t tys ih =>
    intro l n h
    cases l with
    | nil => rfl
    | cons f l =>
      have h2 := ih l n (fun g hg => h g (List.mem_cons_of_mem _ hg))
      unfold layerBytes at h2 ⊢
      rw [List.zipWith_cons_cons, List.sum_cons, h2, List.map_cons, List.zipWith_cons_cons, List.sum_cons]
      obtain ⟨w, c⟩ := h f List.mem_cons_self
      have : f.buf.length = n * f.nvar := by rw [← c]; exact (Nat.div_mul_cancel w.dvd).symm
      rw [this]

theorem bytes_mono (n m : Nat) (h : n ≤ m) : ∀ (tys : List STy) (lay : List Nat),
    (List.zipWith (fun (t : STy) (v : Nat) => 8 + (n * v * t.sz + 7) / 8 * 8) tys lay).sum ≤ (List.zipWith (fun (t : STy) (v : Nat) => 8 + (m * v * t.sz + 7) / 8 * 8) tys lay).sum := by
  intro tys
  induction tys with
  | nil => intro lay; exact Nat.le_refl _
  | cons t tys ih =>
    intro lay
    cases lay with
    | nil => exact Nat.le_refl _
    | cons v lay =>
      rw [List.zipWith_cons_cons, List.sum_cons, List.zipWith_cons_cons, List.sum_cons]
      have h1 : n * v * t.sz ≤ m * v * t.sz := Nat.mul_le_mul_right _ (Nat.mul_le_mul_right _ h)
      have h2 := Nat.div_le_div_right (c := 8) (Nat.add_le_add_right h1 7)
      have h3 := ih lay
      omega

/-- **C37, the serialization of the code.** When the layers on all ranks have the layout of the scheduler, values of the sizes of the field types, and serialize to
less than 2^32 bytes, the codec hypothesis of the C37 theorems holds for the serialization of the patch data made by `apply_change_list`. -/
theorem C37_codec (tys : List STy) (htys : ∀ t ∈ tys, t.Ok) (lay : List Nat) (hlen : tys.length = lay.length) (hne : lay ≠ []) (env env' : SerEnv) (junk : Nat → List Byte)
    (W : Nat) (data : Nat → RankData (List Byte))
    (hd : ∀ r < W, ∀ id l, mfind (data r) id = some l → l.Good lay ∧ (∀ o ∈ l.objects, TypedObj tys o) ∧ layerBytes tys l + 8 < 2 ^ 32) :
    CodecOk (aclSer env tys) (layerDeser env' junk tys lay) lay W data := by
  rintro l hl ⟨r, hr, id, l', h1, h2⟩
  obtain ⟨g, t, b⟩ := hd r hr id l' h1
  have ht : l.Typed tys := typed_of_objects htys hlen hne hl (fun o ho => t o (h2.subset ho))
  have hb : layerBytes tys l + 8 < 2 ^ 32 := by
    have e1 := layerBytes_lwf tys l _ (good_count hne hl).1
    have e2 := layerBytes_lwf tys l' _ (good_count hne g).1
    rw [hl.1] at e1
    rw [g.1] at e2
    have := bytes_mono _ _ h2.length_le tys lay
    omega
  obtain ⟨b, b1, b2, b3⟩ := C50_layer_roundtrip tys l ht hb env
  have := layerBytes_mod8 tys l
  refine ⟨b, ?_, by rw [← hl.1]; exact b3 env' junk⟩
  unfold aclSer
  rw [b1]
  simp only [Res.bind]
  unfold sendCheck
  rw [if_neg (by omega), if_neg (by omega)]

/-- Two ranks with patch data of one field of two 4-byte values per object. -/
example : ∀ r < 2, ∀ id l, mfind (gExData r) id = some l → l.Good [2] ∧ (∀ o ∈ l.objects, TypedObj [⟨4, 1, 4⟩] o) ∧ layerBytes [⟨4, 1, 4⟩] l + 8 < 2 ^ 32 := by
  intro r hr id l hl
  have := mfind_mem' _ _ _ hl
  have hg : ∀ b : List (List Byte), b.length % 2 = 0 → b.length < 2 ^ 32 → PLayer.Good [2] [⟨2, b⟩] := fun b h1 h2 =>
    ⟨rfl, b.length / 2, fun f hf => by
      rw [List.mem_singleton.1 hf]
      exact ⟨⟨Nat.zero_lt_two, Nat.dvd_of_mod_eq_zero h1, h2⟩, rfl⟩⟩
  have ht : ∀ c : List (List Byte), (∀ v ∈ c, v.length = 4) → TypedObj [⟨4, 1, 4⟩] [c] := fun c h => List.Forall₂.cons (fun v hv => h v hv) List.Forall₂.nil
  rcases (by omega : r = 0 ∨ r = 1) with rfl | rfl
  · simp only [gExData, if_true, List.mem_cons, List.not_mem_nil, or_false, Prod.mk.injEq] at this
    rw [this.2]
    exact ⟨hg _ (by decide) (by decide), fun o ho => absurd ho List.not_mem_nil, by decide⟩
  · simp only [gExData, Nat.one_ne_zero, if_false, List.mem_cons, List.not_mem_nil, or_false, Prod.mk.injEq] at this
    rcases this with h | h <;> rw [h.2]
    · refine ⟨hg _ (by decide) (by decide), fun o ho => ?_, by decide⟩
      have : o ∈ [[[[1, 2, 3, 4], [5, 6, 7, 8]]]] := ho
      rw [List.mem_singleton.1 this]
      exact ht _ (by decide)
    · refine ⟨hg _ (by decide) (by decide), fun o ho => ?_, by decide⟩
      have : o ∈ [[[[9, 9, 9, 9], [8, 8, 8, 8]]], [[[7, 7, 7, 7], [6, 6, 6, 6]]]] := ho
      rw [List.mem_cons, List.mem_singleton] at this
      rcases this with h | h <;> rw [h] <;> exact ht _ (by decide)

end Shamrock
