import Verif.Model.Push
import Verif.Props.Reattribute
/-! Pushing data into the scheduler (C42). -/
namespace Shamrock

/-- The local patch list of a rank matches its data: the patches in it (outside error mode) are patches whose data the rank holds. -/
def LocalOk {α : Type} (loc : List Patch) (d : RankData α) : Prop := ∀ p ∈ loc, p.isErrMode = false → p.idPatch ∈ d.map (·.1)

theorem mfind_of_key {V : Type} : ∀ (d : List (Nat × V)) (q : Nat), q ∈ d.map (·.1) → ∃ v, mfind d q = some v := by
  intro d q h
  cases hf : mfind d q with
  | some v => exact ⟨v, rfl⟩
  | none =>
    obtain ⟨x, h1, h2⟩ := List.mem_map.1 h
    exact absurd h2 (mfind_none.1 hf x h1)

theorem pushLoop_false {α : Type} (ins : PLayer α) (d : RankData α) : ∀ (loc : List Patch), LocalOk loc d → pushLoop ins loc false d = .ok d := by
  intro loc
  induction loc with
  | nil => intro _; rfl
  | cons p ps ih =>
    intro h
    have h' : LocalOk ps d := fun q hq => h q (List.mem_cons_of_mem _ hq)
    simp only [pushLoop]
    cases he : p.isErrMode with
    | true => simp only [if_true]; exact ih h'
    | false =>
      obtain ⟨v, hv⟩ := mfind_of_key d _ (h p List.mem_cons_self he)
      simp only [Bool.false_eq_true, if_false, hv]
      exact ih h'

/-- One rank: everything is appended to one of its patches. -/
theorem pushLoop_true {α : Type} {lay : List Nat} (hne : lay ≠ []) {ins : PLayer α} (hi : ins.Good lay) (d : RankData α) (hd : MapOk d) (hg : ∀ kv ∈ d, kv.2.Good lay) :
    ∀ (loc : List Patch), LocalOk loc d → (∃ p ∈ loc, p.isErrMode = false) →
    (∀ kv ∈ d, ∀ v ∈ lay, (kv.2.objects.length + ins.objects.length) * v < 2 ^ 32) →
    ∃ d' q, q ∈ d.map (·.1) ∧ pushLoop ins loc true d = .ok d' ∧
      List.Forall₂ (fun (kv kv' : Nat × PLayer α) => kv'.1 = kv.1 ∧ kv'.2.Good lay ∧ kv'.2.objects = kv.2.objects ++ if kv.1 = q then ins.objects else []) d d' := by
  intro loc
  induction loc with
  | nil => intro _ ⟨p, hp, _⟩; cases hp
  | cons p ps ih =>
    intro h hex hsz
    have h' : LocalOk ps d := fun q hq => h q (List.mem_cons_of_mem _ hq)
    simp only [pushLoop]
    cases he : p.isErrMode with
    | true =>
      simp only [if_true]
      refine ih h' ?_ hsz
      obtain ⟨q, hq, hqe⟩ := hex
      rcases List.mem_cons.1 hq with rfl | hq
      · rw [he] at hqe; cases hqe
      · exact ⟨q, hq, hqe⟩
    | false =>
      have hk := h p List.mem_cons_self he
      obtain ⟨v, hv⟩ := mfind_of_key d _ hk
      obtain ⟨d', a, b⟩ := insertInto_ok hne hi p.idPatch d (mapOk_nodup hd) hk (fun kv hkv => ⟨hg kv hkv, fun _ => hsz kv hkv⟩)
      refine ⟨d', p.idPatch, hk, ?_, b⟩
      simp only [Bool.false_eq_true, if_false, hv, if_true, a, Res.bind]
      refine pushLoop_false ins d' ps (fun q hq hqe => ?_)
      rw [forall2_fst (fun _ _ h => h.1) b]
      exact h' q hq hqe

theorem pushLoop_skip {α : Type} (ins : PLayer α) (d : RankData α) (b : Bool) : ∀ (loc : List Patch), (∀ p ∈ loc, p.isErrMode = true) → pushLoop ins loc b d = .ok d := by
  intro loc
  induction loc with
  | nil => intro _; rfl
  | cons p ps ih =>
    intro h
    simp only [pushLoop, h p List.mem_cons_self, if_true]
    exact ih (fun q hq => h q (List.mem_cons_of_mem _ hq))

theorem push_objects {α : Type} (ins : List (List (List α))) (q : Nat) {R : Nat × PLayer α → Nat × PLayer α → Prop} {d d' : RankData α}
    (h : List.Forall₂ R d d') (hR : ∀ kv kv', R kv kv' → kv'.2.objects = kv.2.objects ++ if kv.1 = q then ins else []) (hn : (d.map (·.1)).Nodup) :
    (d'.flatMap fun kv => kv.2.objects).Perm ((d.flatMap fun kv => kv.2.objects) ++ if q ∈ d.map (·.1) then ins else []) := by
  induction h with
  | nil => simp
  | @cons kv kv' d d' a _ ih =>
    rw [List.map_cons, List.nodup_cons] at hn
    have := ih hn.2
    rw [List.flatMap_cons, List.flatMap_cons, hR _ _ a, List.map_cons]
    by_cases hk : kv.1 = q
    · rw [if_pos hk]
      have hq : q ∉ d.map (·.1) := by rw [← hk]; exact hn.1
      rw [if_neg hq, List.append_nil] at this
      rw [if_pos (List.mem_cons.2 (Or.inl hk.symm)), List.append_assoc, List.append_assoc]
      exact List.Perm.append_left _ ((List.Perm.append_left _ this).trans List.perm_append_comm)
    · rw [if_neg hk, List.append_nil, List.append_assoc]
      refine List.Perm.append_left _ (this.trans ?_)
      have : (q ∈ kv.1 :: d.map (·.1)) ↔ q ∈ d.map (·.1) := by
        rw [List.mem_cons]; exact ⟨fun h => h.resolve_left (fun e => hk e.symm), Or.inr⟩
      simp only [this]; exact .refl _

/-- The insertion stage on one rank: the rank keeps the same patches, and its objects are the old ones and the pushed ones. -/
theorem push_rank {α : Type} {lay : List Nat} (hne : lay ≠ []) (thr : Nat) {ins : PLayer α} (hi : ins.Good lay) (hthr : ins.objects.length < thr)
    (d : RankData α) (hd : MapOk d) (hg : ∀ kv ∈ d, kv.2.Good lay) (loc : List Patch) (hl : LocalOk loc d)
    (hex : (∃ p ∈ loc, p.isErrMode = false) ∨ ins.objects = [])
    (hsz : ∀ kv ∈ d, ∀ v ∈ lay, (kv.2.objects.length + ins.objects.length) * v < 2 ^ 32) :
    ∃ d', pushInsert thr ins loc d = .ok d' ∧ d'.map (·.1) = d.map (·.1) ∧ (∀ kv ∈ d', kv.2.Good lay) ∧
      (d'.flatMap fun kv => kv.2.objects).Perm ((d.flatMap fun kv => kv.2.objects) ++ ins.objects) := by
  unfold pushInsert
  rw [(good_count hne hi).2.2]
  simp only [Res.bind, if_pos hthr]
  by_cases hx : ∃ p ∈ loc, p.isErrMode = false
  · obtain ⟨d', q, hq, a, b⟩ := pushLoop_true hne hi d hd hg loc hl hx hsz
    refine ⟨d', a, forall2_fst (fun _ _ h => h.1) b, ?_, ?_⟩
    · intro kv hkv
      obtain ⟨_, _, c⟩ := forall2_mem_right b kv hkv
      exact c.2.1
    · have := push_objects ins.objects q b (fun _ _ h => h.2.2) (mapOk_nodup hd)
      rw [if_pos hq] at this
      exact this
  · have hall : ∀ p ∈ loc, p.isErrMode = true := by
      intro p hp
      by_contra hc
      exact hx ⟨p, hp, by simpa using hc⟩
    refine ⟨d, pushLoop_skip ins d true loc hall, rfl, hg, ?_⟩
    rw [hex.resolve_left hx, List.append_nil]

/-- **C42, insertion.** On any number of ranks, if every rank that pushes objects owns at least one patch (outside error mode) and pushes fewer than
`split_threshold` objects: no rank throws, the ranks keep the same patches and layouts, and the objects of the simulation are exactly the old ones and all
the pushed ones, none lost or duplicated. The value returned is the number of pushed objects. Missing from the full property: ranks that push objects but own no patch
(`C42_no_local_patch_defect`). -/
theorem C42_insert_partial {α : Type} (rk : Nat → Nat) (lay : List Nat) (hne : lay ≠ []) (world : List (RankData α)) (hw : PatchWorld rk lay world)
    (ins : List (PLayer α)) (locs : List (List Patch)) (hlen : ins.length = world.length) (hlen2 : locs.length = world.length) (thr : Nat)
    (hi : ∀ l ∈ ins, l.Good lay ∧ l.objects.length < thr)
    (hl : ∀ (r : Nat) d loc, world[r]? = some d → locs[r]? = some loc → LocalOk loc d)
    (hex : ∀ (r : Nat) l loc, ins[r]? = some l → locs[r]? = some loc → (∃ p ∈ loc, p.isErrMode = false) ∨ l.objects = [])
    (hsz : ∀ v ∈ lay, ((allObjects world).length + (ins.flatMap PLayer.objects).length) * v < 2 ^ 32) :
    ∃ world', world'.length = world.length ∧
      (∀ (r : Nat) d l loc, world[r]? = some d → ins[r]? = some l → locs[r]? = some loc → ∃ d', world'[r]? = some d' ∧ pushInsert thr l loc d = .ok d' ∧ d'.map (·.1) = d.map (·.1)) ∧
      PatchWorld rk lay world' ∧ (allObjects world').Perm (allObjects world ++ ins.flatMap PLayer.objects) ∧
      ((ins.flatMap PLayer.objects).length < 2 ^ 64 → pushCount ins = .ok (ins.flatMap PLayer.objects).length) := by
  have key : ∀ (world : List (RankData α)) (ins : List (PLayer α)) (locs : List (List Patch)), ins.length = world.length → locs.length = world.length →
      (∀ d ∈ world, MapOk d) → (∀ d ∈ world, ∀ kv ∈ d, kv.2.Good lay) → (∀ l ∈ ins, l.Good lay ∧ l.objects.length < thr) →
      (∀ (r : Nat) d loc, world[r]? = some d → locs[r]? = some loc → LocalOk loc d) →
      (∀ (r : Nat) l loc, ins[r]? = some l → locs[r]? = some loc → (∃ p ∈ loc, p.isErrMode = false) ∨ l.objects = []) →
      (∀ v ∈ lay, ((allObjects world).length + (ins.flatMap PLayer.objects).length) * v < 2 ^ 32) →
      ∃ world', world'.length = world.length ∧
      (∀ (r : Nat) d l loc, world[r]? = some d → ins[r]? = some l → locs[r]? = some loc →
        ∃ d', world'[r]? = some d' ∧ pushInsert thr l loc d = .ok d' ∧ d'.map (·.1) = d.map (·.1) ∧ ∀ kv ∈ d', kv.2.Good lay) ∧
      (allObjects world').Perm (allObjects world ++ ins.flatMap PLayer.objects) := by
    intro world
    induction world with
    | nil =>
      intro ins locs h1 h2 _ _ _ _ _ _
      have : ins = [] := List.eq_nil_of_length_eq_zero h1
      subst this
      exact ⟨[], rfl, by intro r d l loc h; simp at h, by simp [allObjects]⟩
    | cons d world ih =>
      intro ins locs h1 h2 hm hg hi hl hex hsz
      cases ins with
      | nil => simp at h1
      | cons l ins =>
      cases locs with
      | nil => simp at h2
      | cons loc locs =>
        have eA : allObjects (d :: world) = (d.flatMap fun kv => kv.2.objects) ++ allObjects world := rfl
        rw [eA, List.flatMap_cons] at hsz
        have bound : ∀ kv ∈ d, kv.2.objects.length ≤ (d.flatMap fun kv => kv.2.objects).length := by
          intro kv hkv
          exact (List.Sublist.length_le (by
            have := List.sublist_flatten_of_mem (L := d.map fun kv => kv.2.objects) (List.mem_map_of_mem (f := fun kv : Nat × PLayer α => kv.2.objects) hkv)
            exact this))
        obtain ⟨d', p1, p2, p3, p4⟩ := push_rank hne thr (hi l List.mem_cons_self).1 (hi l List.mem_cons_self).2 d (hm d List.mem_cons_self) (hg d List.mem_cons_self)
          loc (hl 0 d loc rfl rfl) (hex 0 l loc rfl rfl) (fun kv hkv v hv => by
            refine Nat.lt_of_le_of_lt (Nat.mul_le_mul_right v ?_) (hsz v hv)
            have := bound kv hkv
            simp only [List.length_append]
            omega)
        obtain ⟨w', q1, q2, q3⟩ := ih ins locs (by simpa using h1) (by simpa using h2) (fun x hx => hm x (List.mem_cons_of_mem _ hx)) (fun x hx => hg x (List.mem_cons_of_mem _ hx))
          (fun x hx => hi x (List.mem_cons_of_mem _ hx)) (fun r a b ha hb => hl (r + 1) a b (by simpa using ha) (by simpa using hb))
          (fun r a b ha hb => hex (r + 1) a b (by simpa using ha) (by simpa using hb)) (fun v hv => by
            refine Nat.lt_of_le_of_lt (Nat.mul_le_mul_right v ?_) (hsz v hv)
            simp only [List.length_append]; omega)
        refine ⟨d' :: w', by simp [q1], ?_, ?_⟩
        · intro r a b c ha hb hc
          cases r with
          | zero =>
            simp only [List.getElem?_cons_zero, Option.some.injEq] at ha hb hc
            subst ha hb hc
            exact ⟨d', rfl, p1, p2, p3⟩
          | succ r => exact q2 r a b c (by simpa using ha) (by simpa using hb) (by simpa using hc)
        · have eB : allObjects (d' :: w') = (d'.flatMap fun kv => kv.2.objects) ++ allObjects w' := rfl
          rw [eA, eB, List.flatMap_cons]
          refine (p4.append q3).trans ?_
          rw [List.append_assoc, List.append_assoc]
          refine List.Perm.append_left _ ?_
          rw [← List.append_assoc, ← List.append_assoc]
          exact List.Perm.append_right _ List.perm_append_comm
  obtain ⟨world', k1, k2, k3⟩ := key world ins locs hlen hlen2 hw.maps hw.good hi hl hex hsz
  have get : ∀ (r : Nat) d', world'[r]? = some d' → ∃ d, world[r]? = some d ∧ d'.map (·.1) = d.map (·.1) ∧ ∀ kv ∈ d', kv.2.Good lay := by
    intro r d' h
    have hr : r < world.length := by rw [← k1]; exact (List.getElem?_eq_some_iff.1 h).1
    obtain ⟨d'', a, b, c, e⟩ := k2 r _ _ _ (List.getElem?_eq_getElem hr) (List.getElem?_eq_getElem (by omega)) (List.getElem?_eq_getElem (by omega))
    rw [h, Option.some.injEq] at a
    subst a
    exact ⟨_, List.getElem?_eq_getElem hr, c, e⟩
  have key2 : ∀ kv : Nat × PLayer α, ∀ (d d' : RankData α), d'.map (·.1) = d.map (·.1) → kv ∈ d' → ∃ kv0 ∈ d, kv0.1 = kv.1 := by
    intro kv d d' e hkv
    have : kv.1 ∈ d'.map (·.1) := List.mem_map_of_mem (f := (·.1)) hkv
    rw [e] at this
    exact List.mem_map.1 this
  refine ⟨world', k1, fun r d l loc a b c => ?_, ⟨fun d' hd' => ?_, fun d' hd' => ?_, fun r d' hr kv hkv => ?_, fun d' hd' kv hkv => ?_⟩, k3, fun hlt => ?_⟩
  · obtain ⟨d', e1, e2, e3, -⟩ := k2 r d l loc a b c
    exact ⟨d', e1, e2, e3⟩
  · obtain ⟨r, hr⟩ := List.mem_iff_getElem?.1 hd'
    obtain ⟨d, h1, h2, -⟩ := get r d' hr
    have := hw.maps d (List.mem_of_getElem? h1)
    have h3 : (d.map (·.1)).Pairwise (· < ·) := List.pairwise_map.2 this
    rw [← h2] at h3
    exact List.pairwise_map.1 h3
  · obtain ⟨r, hr⟩ := List.mem_iff_getElem?.1 hd'
    exact (get r d' hr).choose_spec.2.2
  · obtain ⟨d, h1, h2, -⟩ := get r d' hr
    obtain ⟨kv0, a, b⟩ := key2 kv d d' h2 hkv
    rw [← b]; exact hw.own r d h1 kv0 a
  · obtain ⟨r, hr⟩ := List.mem_iff_getElem?.1 hd'
    obtain ⟨d, h1, h2, -⟩ := get r d' hr
    obtain ⟨kv0, a, b⟩ := key2 kv d d' h2 hkv
    rw [← b]; exact hw.ids d (List.mem_of_getElem? h1) kv0 a
  · have : ∀ ins : List (PLayer α), (∀ l ∈ ins, l.Good lay) → (ins.flatMap PLayer.objects).length < 2 ^ 64 → pushCount ins = .ok (ins.flatMap PLayer.objects).length := by
      intro ins
      induction ins with
      | nil => intro _ _; rfl
      | cons l ins ih =>
        intro h hb
        rw [List.flatMap_cons, List.length_append] at hb ⊢
        simp only [pushCount]
        rw [(good_count hne (h l List.mem_cons_self)).2.2, ih (fun x hx => h x (List.mem_cons_of_mem _ hx)) (by omega)]
        simp only [Res.bind]
        rw [Nat.mod_eq_of_lt hb]
    exact this ins (fun l h => (hi l h).1) hlt

/-- **C42, threshold.** Pushing `split_threshold` objects or more on a rank throws on that rank, before any data is touched. -/
theorem C42_threshold_throws {α : Type} {lay : List Nat} (hne : lay ≠ []) (thr : Nat) {ins : PLayer α} (hi : ins.Good lay) (h : thr ≤ ins.objects.length)
    (loc : List Patch) (d : RankData α) : pushInsert thr ins loc d = .throws := by
  unfold pushInsert
  rw [(good_count hne hi).2.2]
  simp only [Res.bind]
  rw [if_neg (by omega)]

/-- **C42, objects lost.** A rank without any patch (all patches are on other ranks) silently drops all the objects it pushes: no exception, the data unchanged, while the
returned count includes them. -/
theorem C42_no_local_patch_defect {α : Type} {lay : List Nat} (hne : lay ≠ []) (thr : Nat) (ins : PLayer α) (hi : ins.Good lay) (hn : ins.objects ≠ [])
    (ht : ins.objects.length < thr) (ht2 : thr < 2 ^ 32) (loc : List Patch) (hl : ∀ p ∈ loc, p.isErrMode = true) (d : RankData α) :
    pushInsert thr ins loc d = .ok d ∧ pushCount [ins] = .ok ins.objects.length ∧
    ¬ (d.flatMap fun kv => kv.2.objects).Perm ((d.flatMap fun kv => kv.2.objects) ++ ins.objects) := by
  refine ⟨?_, ?_, fun h => ?_⟩
  · unfold pushInsert
    rw [(good_count hne hi).2.2]
    simp only [Res.bind, if_pos ht]
    exact pushLoop_skip ins d true loc hl
  · simp only [pushCount]
    rw [(good_count hne hi).2.2]
    simp only [Res.bind, Nat.add_zero]
    rw [Nat.mod_eq_of_lt (by omega)]
  · have := h.length_eq
    rw [List.length_append] at this
    exact hn (List.eq_nil_of_length_eq_zero (by omega))

/-- Specification: the global patch list describes the leaves of the tree: each leaf is linked to a patch of the list with the
same box, and each patch of the list is linked to a leaf. -/
def ListMatchesLeaves (global : List Patch) (t : PTree) : Prop :=
  (global.map (·.idPatch)).Nodup ∧ (∀ p ∈ global, p.isErrMode = false) ∧
  (∀ l k, t.leafKey l = true → t.tree l = some k → ∃ p ∈ global, p.idPatch = k.linked ∧ p.coord = k.coord) ∧
  ∀ p ∈ global, ∃ l k, t.leafKey l = true ∧ t.tree l = some k ∧ p.idPatch = k.linked ∧ p.coord = k.coord

theorem patchOf_mem {global : List Patch} (hn : (global.map (·.idPatch)).Nodup) {p : Patch} (hp : p ∈ global) : patchOf global p.idPatch = some p := by
  unfold patchOf
  rw [if_pos (List.any_eq_true.2 ⟨p, hp, by simp⟩)]
  cases hf : global.find? (fun q => q.idPatch == p.idPatch) with
  | none => exact absurd (List.find?_eq_none.1 hf p hp) (by simp)
  | some q =>
    have h1 := List.mem_of_find?_eq_some hf
    have h2 := List.find?_some hf
    simp only [beq_iff_eq] at h2
    rw [List.inj_on_of_nodup_map hn h1 hp h2]

/-- The locality check accepts a rank's data exactly when every object of every patch lies in the half open box of the patch. -/
theorem C42_locality_check {α F : Type} [LinearOrder F] (box : PatchCoord → V3 F × V3 F) (pos : α → V3 F) (lay : List Nat) (h0 : lay[0]? = some 1) (global : List Patch)
    (hn : (global.map (·.idPatch)).Nodup) (he : ∀ p ∈ global, p.isErrMode = false) (d : RankData α) (hg : ∀ kv ∈ d, kv.2.Good lay)
    (hd : ∀ kv ∈ d, ∃ p ∈ global, p.idPatch = kv.1) :
    (checkLocality box pos global d = .ok () ∨ checkLocality box pos global d = .throws) ∧
    (checkLocality box pos global d = .ok () ↔ ∀ kv ∈ d, ∀ p ∈ global, p.idPatch = kv.1 → ∀ o ∈ kv.2.objects, ∃ x, objPos 0 pos o = some x ∧ InHalfOpen (box p.coord).1 (box p.coord).2 x) := by
  have hne : lay ≠ [] := by rintro rfl; cases h0
  induction d with
  | nil => exact ⟨Or.inl rfl, fun _ => by simp, fun _ => rfl⟩
  | cons kv d ih =>
    obtain ⟨id, l⟩ := kv
    obtain ⟨p, hp, hpe⟩ := hd (id, l) List.mem_cons_self
    simp only at hpe
    subst hpe
    have hl := hg _ List.mem_cons_self
    obtain ⟨i1, i2⟩ := ih (fun kv hkv => hg kv (List.mem_cons_of_mem _ hkv)) (fun kv hkv => hd kv (List.mem_cons_of_mem _ hkv))
    obtain ⟨g1, g2, g3⟩ := good_count hne hl
    cases l with
    | nil => have := hl.1; rw [List.map_nil] at this; exact absurd this.symm hne
    | cons f r =>
      obtain ⟨fw, fc⟩ := g1 f List.mem_cons_self
      have fn : f.nvar = 1 := by
        have := hl.1
        rw [List.map_cons] at this
        rw [← this] at h0
        simpa using h0
      have fbl : f.buf.length = (PLayer.objects (f :: r)).length := by
        rw [← fc]; unfold PField.count; rw [fn, Nat.div_one]
      -- objects and values of the main field
      have hov : ∀ (i : Nat) (v : α), f.buf[i]? = some v → ∃ o ∈ PLayer.objects (f :: r), objPos 0 pos o = some (pos v) := by
        intro i v hv
        have hi := (List.getElem?_eq_some_iff.1 hv).1
        refine ⟨PLayer.lobj (f :: r) i, List.mem_of_getElem? (good_get hne hl i (by show i < (PLayer.objects (f :: r)).length; omega)), ?_⟩
        have := obj_get f i 0 fw.pos
        rw [fn, Nat.mul_one, Nat.add_zero, hv] at this
        simp only [objPos, PLayer.lobj, List.map_cons, List.getElem?_cons_zero, Option.bind_some, this, Option.map_some]
      have hvo : ∀ o ∈ PLayer.objects (f :: r), ∃ v ∈ f.buf, objPos 0 pos o = some (pos v) := by
        intro o ho
        obtain ⟨i, hi⟩ := List.mem_iff_getElem?.1 ho
        have hil := (List.getElem?_eq_some_iff.1 hi).1
        rw [good_get hne hl i hil, Option.some.injEq] at hi
        have hv : f.buf[i]? = some (f.buf[i]'(by omega)) := List.getElem?_eq_getElem _
        refine ⟨_, List.mem_of_getElem? hv, ?_⟩
        have := obj_get f i 0 fw.pos
        rw [fn, Nat.mul_one, Nat.add_zero, hv] at this
        rw [← hi]
        simp only [objPos, PLayer.lobj, List.map_cons, List.getElem?_cons_zero, Option.bind_some, this, Option.map_some]
      have hchk : f.checkErrRange (fun v => inPatchConverted (pos v) (box p.coord).1 (box p.coord).2) =
          @ite (Res Unit) (∀ o ∈ PLayer.objects (f :: r), ∃ x, objPos 0 pos o = some x ∧ InHalfOpen (box p.coord).1 (box p.coord).2 x) (Classical.dec _) (.ok ()) .throws := by
        have hall : (f.buf.all fun v => inPatchConverted (pos v) (box p.coord).1 (box p.coord).2) = true ↔
            ∀ o ∈ PLayer.objects (f :: r), ∃ x, objPos 0 pos o = some x ∧ InHalfOpen (box p.coord).1 (box p.coord).2 x := by
          rw [List.all_eq_true]
          constructor
          · intro h o ho
            obtain ⟨v, hv, e⟩ := hvo o ho
            exact ⟨_, e, (inPatchConverted_iff _ _ _).1 (h v hv)⟩
          · intro h v hv
            obtain ⟨i, hi⟩ := List.mem_iff_getElem?.1 hv
            obtain ⟨o, ho, e⟩ := hov i v hi
            obtain ⟨x, hx, hxx⟩ := h o ho
            rw [e, Option.some.injEq] at hx
            rw [inPatchConverted_iff, hx]; exact hxx
        unfold PField.checkErrRange
        rw [objCnt_ok fw, fc]
        simp only [Res.ok_bind]
        by_cases hz : (PLayer.objects (f :: r)).length = 0
        · rw [if_pos hz, if_pos]
          · rfl
          · rw [List.eq_nil_of_length_eq_zero hz]; simp
        · rw [if_neg hz, if_neg (by simp [fn])]
          by_cases ha : (f.buf.all fun v => inPatchConverted (pos v) (box p.coord).1 (box p.coord).2) = true
          · rw [if_pos ha, if_pos (hall.1 ha)]; rfl
          · rw [if_neg ha, if_neg (fun h => ha (hall.2 h))]
      simp only [checkLocality, patchOf_mem hn hp, he p hp, Bool.false_eq_true, if_false]
      rw [hchk]
      have hsame : ∀ p' ∈ global, p'.idPatch = p.idPatch → p' = p := fun p' hp' e => List.inj_on_of_nodup_map hn hp' hp e
      by_cases hb : ∀ o ∈ PLayer.objects (f :: r), ∃ x, objPos 0 pos o = some x ∧ InHalfOpen (box p.coord).1 (box p.coord).2 x
      · rw [if_pos hb]
        simp only [Res.bind]
        refine ⟨i1, i2.trans ⟨fun h kv hkv => ?_, fun h kv hkv => h kv (List.mem_cons_of_mem _ hkv)⟩⟩
        rcases List.mem_cons.1 hkv with rfl | hkv
        · intro p' hp' e
          rw [hsame p' hp' e]; exact hb
        · exact h kv hkv
      · rw [if_neg hb]
        refine ⟨Or.inr rfl, fun h => (by cases (show (Res.throws : Res Unit) = Res.ok () from h)), fun h => ?_⟩
        exact absurd (h _ List.mem_cons_self p hp rfl) hb

/-- `push_patch_data`, for every tree with the two invariants. -/
theorem push_inv {α F : Type} [LinearOrder F] (A : MonoArith F) (fact dmin : V3 F) (smin : V3 Nat)
    (hf : A.goodFact fact.x ∧ A.goodFact fact.y ∧ A.goodFact fact.z) (t : PTree) (H : TInv t) (hL : TLev t) (hs : SplitsOk t) (hdj : RootsDisjoint t)
    (hri : RootsInRange smin t) (rs : List Nat) (hr : Enumerates rs t.roots) (hnd : rs.Nodup)
    (rk : Nat → Nat) (lay : List Nat) (pos : α → V3 F) (hpos : lay[0]? = some 1)
    (world : List (RankData α)) (hw : PatchWorld rk lay world) (global : List Patch) (hgl : ListMatchesLeaves global t)
    (hgd : ∀ p ∈ global, ∃ d ∈ world, p.idPatch ∈ d.map (·.1)) (hdg : ∀ d ∈ world, ∀ kv ∈ d, ∃ p ∈ global, p.idPatch = kv.1)
    (ins : List (PLayer α)) (locs : List (List Patch)) (hlen : ins.length = world.length) (hlen2 : locs.length = world.length) (thr : Nat)
    (hi : ∀ l ∈ ins, l.Good lay ∧ l.objects.length < thr)
    (hl : ∀ (r : Nat) d loc, world[r]? = some d → locs[r]? = some loc → LocalOk loc d)
    (hex : ∀ (r : Nat) l loc, ins[r]? = some l → locs[r]? = some loc → (∃ p ∈ loc, p.isErrMode = false) ∨ l.objects = [])
    (hsz : ∀ v ∈ lay, ((allObjects world).length + (ins.flatMap PLayer.objects).length) * v < 2 ^ 32)
    (hin : ∀ o ∈ allObjects world ++ ins.flatMap PLayer.objects, ∃ p r n, objPos 0 pos o = some p ∧ t.roots r = true ∧ t.tree r = some n ∧ Contains A fact dmin smin p n)
    (garbage : Nat → α) (order : Nat → Nat → Nat → Nat → Nat → List Nat) (ho : ∀ r c q k, GoodOrder (order r c q k))
    (perm : Nat → Nat → List (Nat × List Nat) → List (Nat × List Nat)) (hperm : ∀ r c g, (perm r c g).Perm g)
    (mx dev lim : Nat) (buf : Bool) (hlim : 0 < lim) (hmx : mx < 2 ^ 31) (h8 : 8 ≤ mx) :
    ∃ (world' : List (RankData α)) (s : SSt F) (ids : List Nat) (nid : Nat → List (Nat × List Nat)) (d1 : Nat → RankData α) (ex : Nat → List ((Nat × Nat) × PLayer α)),
      world'.length = world.length ∧
      (∀ (r : Nat) d l loc, world[r]? = some d → ins[r]? = some l → locs[r]? = some loc → ∃ d', world'[r]? = some d' ∧ pushInsert thr l loc d = .ok d' ∧ d'.map (·.1) = d.map (·.1)) ∧
      serBuild (domainBox A fact dmin smin) t rs = .ok (s, ids) ∧
      (∀ (r : Nat) d, world'[r]? = some d → computeNewPid (fun p => patchOwner s ids p) pos 0 d = .ok (nid r) ∧ extractAll garbage (order r) (perm r) lay (nid r) d [] = .ok (d1 r, ex r)) ∧
      ∀ (ser : PLayer α → List Byte) (deser : List Byte → PLayer α), (∀ r < world'.length, ∀ e ∈ ex r, e.2.Good lay → (∀ o ∈ e.2.objects, o ∈ allObjects world ++ ins.flatMap PLayer.objects) → deser (ser e.2) = e.2) →
        FitsComm rk mx dev ser ((List.range world'.length).map ex) →
        CommDelivers rk mx dev lim buf (((List.range world'.length).map ex).map fun l => (splitSend rk ser l).2) fun r recv => ∀ d, world'[r]? = some d →
          ∃ d2, insertRecv (joinRecv deser recv (splitSend rk ser (ex r)).1) (d1 r) = .ok d2 ∧ d2.map (·.1) = d.map (·.1) ∧
            checkLocality (domainBox A fact dmin smin) pos global d2 = .ok () ∧
            ∀ kv ∈ d2, kv.2.Good lay ∧ ∀ p ∈ global, p.idPatch = kv.1 →
              (∀ o ∈ kv.2.objects, ∃ x, objPos 0 pos o = some x ∧ InHalfOpen (domainBox A fact dmin smin p.coord).1 (domainBox A fact dmin smin p.coord).2 x) ∧
              ∃ keep : List (List α) → Bool, kv.2.objects.Perm ((allObjects world ++ ins.flatMap PLayer.objects).filter keep) ∧
                ∀ o ∈ allObjects world ++ ins.flatMap PLayer.objects, keep o = true ↔
                  ∃ x, objPos 0 pos o = some x ∧ InHalfOpen (domainBox A fact dmin smin p.coord).1 (domainBox A fact dmin smin p.coord).2 x := by
  have hne : lay ≠ [] := by rintro rfl; cases hpos
  obtain ⟨world', w1, w2, w3, w4, -⟩ := C42_insert_partial rk lay hne world hw ins locs hlen hlen2 thr hi hl hex hsz
  obtain ⟨gn, ge, gl, gp⟩ := hgl
  have hkeys : ∀ (r : Nat) d, world[r]? = some d → ∃ d', world'[r]? = some d' ∧ d'.map (·.1) = d.map (·.1) := by
    intro r d hd
    have hrl := (List.getElem?_eq_some_iff.1 hd).1
    obtain ⟨d', a, b, c⟩ := w2 r d _ _ hd (List.getElem?_eq_getElem (by omega)) (List.getElem?_eq_getElem (by omega))
    exact ⟨d', a, c⟩
  have hgd' : ∀ p ∈ global, ∃ d ∈ world', p.idPatch ∈ d.map (·.1) := by
    intro p hp
    obtain ⟨d, hd, hk⟩ := hgd p hp
    obtain ⟨r, hr⟩ := List.mem_iff_getElem?.1 hd
    obtain ⟨d', a, b⟩ := hkeys r d hr
    exact ⟨d', List.mem_of_getElem? a, by rw [b]; exact hk⟩
  have hdg' : ∀ d ∈ world', ∀ id ∈ d.map (·.1), ∃ p ∈ global, p.idPatch = id := by
    intro d hd id hid
    obtain ⟨r, hr⟩ := List.mem_iff_getElem?.1 hd
    have hrl := (List.getElem?_eq_some_iff.1 hr).1
    obtain ⟨d', a, b⟩ := hkeys r _ (List.getElem?_eq_getElem (by omega))
    rw [hr, Option.some.injEq] at a
    subst a
    rw [b] at hid
    obtain ⟨kv, hkv, rfl⟩ := List.mem_map.1 hid
    exact hdg _ (List.getElem_mem _) kv hkv
  obtain ⟨s, ids, dest, e, hdest, nid, d1, ex, x1, x2⟩ := reattribute_inv A fact dmin smin hf t H hL hs hdj hri rs hr hnd rk lay pos 0 hpos world' w3
    (fun o ho => hin o (w4.mem_iff.1 ho)) (fun l k hlk htk => by
      obtain ⟨p, hp, e1, -⟩ := gl l k hlk htk
      rw [← e1]; exact hgd' p hp) (fun v hv => by rw [w4.length_eq, List.length_append]; exact hsz v hv) garbage order ho perm hperm mx dev lim buf hlim hmx h8
  -- the destination is the patch whose box contains the object
  have hbox : ∀ o ∈ allObjects world ++ ins.flatMap PLayer.objects, ∀ p ∈ global, (dest o = p.idPatch ↔
      ∃ x, objPos 0 pos o = some x ∧ InHalfOpen (domainBox A fact dmin smin p.coord).1 (domainBox A fact dmin smin p.coord).2 x) := by
    intro o ho' p hp
    obtain ⟨x, l, k, y1, y2, y3, y4, y5⟩ := hdest o (w4.mem_iff.2 ho')
    obtain ⟨p1, p1m, p1i, p1c⟩ := gl l k y2 y3
    constructor
    · intro hd
      have : p1 = p := List.inj_on_of_nodup_map gn p1m hp (by rw [p1i, y5, hd])
      subst this
      refine ⟨x, y1, ?_⟩
      rw [p1c]; exact y4
    · rintro ⟨x', hx', hin'⟩
      rw [y1, Option.some.injEq] at hx'
      subst hx'
      obtain ⟨l', k', z1, z2, z3, z4⟩ := gp p hp
      obtain ⟨xx, r, n, v1, v2, v3, v4⟩ := hin o ho'
      rw [y1, Option.some.injEq] at v1
      subst v1
      obtain ⟨_, _, lu, ku, -, -, -, -, hu, -⟩ := owner_inv A fact dmin smin hf t H hL hs hdj hri rs hr hnd x ⟨r, n, v2, v3, v4⟩
      have e1 := hu l k y2 y3 y4
      have e2 := hu l' k' z1 z2 (by unfold Contains; rw [← z4]; exact hin')
      rw [e2, ← e1, y3, Option.some.injEq] at z2
      rw [← y5, z3, z2]
  refine ⟨world', s, ids, nid, d1, ex, w1, w2, e, x1, fun ser deser hsd hfit => (x2 ser deser (fun r hr e he hg ho => hsd r hr e he hg fun o hoo => w4.mem_iff.1 (ho o hoo)) hfit).mono (fun r hrl recv hP d hd => ?_)⟩
  obtain ⟨d2, a, b, c⟩ := hP d hd
  have hk2 : ∀ kv ∈ d2, ∃ p ∈ global, p.idPatch = kv.1 := by
    intro kv hkv
    refine hdg' d (List.mem_of_getElem? hd) kv.1 ?_
    rw [← b]; exact List.mem_map_of_mem (f := (·.1)) hkv
  have hperm2 : ∀ kv ∈ d2, kv.2.objects.Perm ((allObjects world ++ ins.flatMap PLayer.objects).filter fun o => dest o == kv.1) := fun kv hkv =>
    (c kv hkv).2.trans (w4.filter _)
  have hin2 : ∀ kv ∈ d2, ∀ p ∈ global, p.idPatch = kv.1 → ∀ o ∈ kv.2.objects, ∃ x, objPos 0 pos o = some x ∧
      InHalfOpen (domainBox A fact dmin smin p.coord).1 (domainBox A fact dmin smin p.coord).2 x := by
    intro kv hkv p hp hpe o ho'
    have hm := (hperm2 kv hkv).mem_iff.1 ho'
    rw [List.mem_filter, beq_iff_eq] at hm
    exact (hbox o hm.1 p hp).1 (by rw [hm.2, hpe])
  refine ⟨d2, a, b, ?_, fun kv hkv => ⟨(c kv hkv).1, fun p hp hpe => ⟨hin2 kv hkv p hp hpe, fun o => dest o == kv.1, hperm2 kv hkv, fun o ho' => ?_⟩⟩⟩
  · exact (C42_locality_check (domainBox A fact dmin smin) pos lay hpos global gn ge d2 (fun kv hkv => (c kv hkv).1) hk2).2.2 hin2
  · rw [beq_iff_eq, ← hpe]
    exact hbox o ho' p hp

/-- **C42.** `push_patch_data` on all ranks, up to the load balancing: for every patch tree history, rounding, distribution, and schedule, if every rank that pushes
objects owns a patch, pushes fewer than the threshold, and all old and pushed objects lie in the root boxes: the insertion, the point location, the exchange and the
locality check succeed on all ranks, and in the end each patch holds exactly the old and pushed objects lying in its half open box. -/
theorem C42_push_partial {α F : Type} [LinearOrder F] (A : MonoArith F) (fact dmin : V3 F) (smin : V3 Nat)
    (hf : A.goodFact fact.x ∧ A.goodFact fact.y ∧ A.goodFact fact.z) (t : PTree) (h : THist PTree.init t) (hs : SplitsOk t) (hdj : RootsDisjoint t)
    (hri : RootsInRange smin t) (rs : List Nat) (hr : Enumerates rs t.roots) (hnd : rs.Nodup)
    (rk : Nat → Nat) (lay : List Nat) (pos : α → V3 F) (hpos : lay[0]? = some 1)
    (world : List (RankData α)) (hw : PatchWorld rk lay world) (global : List Patch) (hgl : ListMatchesLeaves global t)
    (hgd : ∀ p ∈ global, ∃ d ∈ world, p.idPatch ∈ d.map (·.1)) (hdg : ∀ d ∈ world, ∀ kv ∈ d, ∃ p ∈ global, p.idPatch = kv.1)
    (ins : List (PLayer α)) (locs : List (List Patch)) (hlen : ins.length = world.length) (hlen2 : locs.length = world.length) (thr : Nat)
    (hi : ∀ l ∈ ins, l.Good lay ∧ l.objects.length < thr)
    (hl : ∀ (r : Nat) d loc, world[r]? = some d → locs[r]? = some loc → LocalOk loc d)
    (hex : ∀ (r : Nat) l loc, ins[r]? = some l → locs[r]? = some loc → (∃ p ∈ loc, p.isErrMode = false) ∨ l.objects = [])
    (hsz : ∀ v ∈ lay, ((allObjects world).length + (ins.flatMap PLayer.objects).length) * v < 2 ^ 32)
    (hin : ∀ o ∈ allObjects world ++ ins.flatMap PLayer.objects, ∃ p r n, objPos 0 pos o = some p ∧ t.roots r = true ∧ t.tree r = some n ∧ Contains A fact dmin smin p n)
    (garbage : Nat → α) (order : Nat → Nat → Nat → Nat → Nat → List Nat) (ho : ∀ r c q k, GoodOrder (order r c q k))
    (perm : Nat → Nat → List (Nat × List Nat) → List (Nat × List Nat)) (hperm : ∀ r c g, (perm r c g).Perm g)
    (mx dev lim : Nat) (buf : Bool) (hlim : 0 < lim) (hmx : mx < 2 ^ 31) (h8 : 8 ≤ mx) :
    ∃ (world' : List (RankData α)) (s : SSt F) (ids : List Nat) (nid : Nat → List (Nat × List Nat)) (d1 : Nat → RankData α) (ex : Nat → List ((Nat × Nat) × PLayer α)),
      world'.length = world.length ∧
      (∀ (r : Nat) d l loc, world[r]? = some d → ins[r]? = some l → locs[r]? = some loc → ∃ d', world'[r]? = some d' ∧ pushInsert thr l loc d = .ok d' ∧ d'.map (·.1) = d.map (·.1)) ∧
      serBuild (domainBox A fact dmin smin) t rs = .ok (s, ids) ∧
      (∀ (r : Nat) d, world'[r]? = some d → computeNewPid (fun p => patchOwner s ids p) pos 0 d = .ok (nid r) ∧ extractAll garbage (order r) (perm r) lay (nid r) d [] = .ok (d1 r, ex r)) ∧
      ∀ (ser : PLayer α → List Byte) (deser : List Byte → PLayer α), (∀ r < world'.length, ∀ e ∈ ex r, e.2.Good lay → (∀ o ∈ e.2.objects, o ∈ allObjects world ++ ins.flatMap PLayer.objects) → deser (ser e.2) = e.2) →
        FitsComm rk mx dev ser ((List.range world'.length).map ex) →
        CommDelivers rk mx dev lim buf (((List.range world'.length).map ex).map fun l => (splitSend rk ser l).2) fun r recv => ∀ d, world'[r]? = some d →
          ∃ d2, insertRecv (joinRecv deser recv (splitSend rk ser (ex r)).1) (d1 r) = .ok d2 ∧ d2.map (·.1) = d.map (·.1) ∧
            checkLocality (domainBox A fact dmin smin) pos global d2 = .ok () ∧
            ∀ kv ∈ d2, kv.2.Good lay ∧ ∀ p ∈ global, p.idPatch = kv.1 →
              (∀ o ∈ kv.2.objects, ∃ x, objPos 0 pos o = some x ∧ InHalfOpen (domainBox A fact dmin smin p.coord).1 (domainBox A fact dmin smin p.coord).2 x) ∧
              ∃ keep : List (List α) → Bool, kv.2.objects.Perm ((allObjects world ++ ins.flatMap PLayer.objects).filter keep) ∧
                ∀ o ∈ allObjects world ++ ins.flatMap PLayer.objects, keep o = true ↔
                  ∃ x, objPos 0 pos o = some x ∧ InHalfOpen (domainBox A fact dmin smin p.coord).1 (domainBox A fact dmin smin p.coord).2 x :=
  push_inv A fact dmin smin hf t (h.inv TInv.init) h.lev hs hdj hri rs hr hnd rk lay pos hpos world hw global hgl hgd hdg ins locs hlen hlen2 thr hi hl hex hsz hin garbage order ho perm hperm mx dev lim buf hlim hmx h8

/-! Concrete case: two roots, linked to patch 3 of rank 0 and patch 5 of rank 1; both ranks push objects, some of which belong to the other rank. -/
def puTree : List TOp := [.root 0 ⟨⟨0, 0, 0⟩, ⟨79, 79, 79⟩⟩, .root 0 ⟨⟨80, 0, 0⟩, ⟨159, 79, 79⟩⟩, .link 0 3, .link 1 5]
def puGlobal : List Patch := [⟨3, 0, 0, ⟨⟨0, 0, 0⟩, ⟨79, 79, 79⟩⟩, 0⟩, ⟨5, 0, 0, ⟨⟨80, 0, 0⟩, ⟨159, 79, 79⟩⟩, 1⟩]
def puWorld : List (RankData (V3 Int)) := [[(3, [⟨1, [⟨0, 0, 0⟩]⟩])], [(5, [⟨1, []⟩])]]
def puIns : List (PLayer (V3 Int)) := [[⟨1, [⟨-5, 1, 7⟩, ⟨10, 0, 0⟩]⟩], [⟨1, [⟨2, 2, 2⟩]⟩]]
def puLocs : List (List Patch) := [[⟨3, 0, 0, ⟨⟨0, 0, 0⟩, ⟨79, 79, 79⟩⟩, 0⟩], [⟨9, 0, 0, ⟨⟨0, 0, 0⟩, ⟨0, 0, 0⟩⟩, 2 ^ 32 - 1⟩, ⟨5, 0, 0, ⟨⟨80, 0, 0⟩, ⟨159, 79, 79⟩⟩, 1⟩]]

theorem puGood (l : PLayer (V3 Int)) (b : List (V3 Int)) (h : l = [⟨1, b⟩]) (hb : b.length < 2 ^ 32) : l.Good [1] := by
  subst h
  refine ⟨rfl, b.length, fun f hf => ?_⟩
  rw [List.mem_singleton] at hf
  subst hf
  exact ⟨⟨Nat.one_pos, ⟨b.length, by simp⟩, hb⟩, by simp [PField.count]⟩

example : ∃ t, THist PTree.init t ∧ SplitsOk t ∧ RootsDisjoint t ∧ RootsInRange ⟨0, 0, 0⟩ t ∧ Enumerates [0, 1] t.roots ∧
    PatchWorld (fun id => if id = 5 then 1 else 0) [1] puWorld ∧ ListMatchesLeaves puGlobal t ∧
    (∀ p ∈ puGlobal, ∃ d ∈ puWorld, p.idPatch ∈ d.map (·.1)) ∧ (∀ d ∈ puWorld, ∀ kv ∈ d, ∃ p ∈ puGlobal, p.idPatch = kv.1) ∧
    (∀ l ∈ puIns, l.Good [1] ∧ l.objects.length < 3) ∧
    (∀ (r : Nat) d loc, puWorld[r]? = some d → puLocs[r]? = some loc → LocalOk loc d) ∧
    (∀ (r : Nat) l loc, puIns[r]? = some l → puLocs[r]? = some loc → (∃ p ∈ loc, p.isErrMode = false) ∨ l.objects = []) ∧
    (∀ o ∈ allObjects puWorld ++ puIns.flatMap PLayer.objects, ∃ p r n, objPos 0 id o = some p ∧ t.roots r = true ∧ t.tree r = some n ∧
      Contains roundedArith ⟨3, 3, 3⟩ ⟨-5, 0, 0⟩ ⟨0, 0, 0⟩ p n) := by
  have h : (tRun puTree PTree.init).isSome := by decide +kernel
  obtain ⟨t, ht⟩ := Option.isSome_iff_exists.1 h
  have hh := tRun_hist puTree _ _ _ (THist.nil _) ht
  have H := hh.inv TInv.init
  have e : t = (tRun puTree PTree.init).getD PTree.init := by rw [ht]; rfl
  have hN : t.nextId = 2 := by rw [e]; decide +kernel
  have hlt : ∀ x n, t.tree x = some n → x < 2 := fun x n hx => by have := H.fresh x n hx; omega
  have hroot : ∀ x < 2, (t.roots x = true ↔ x = 0 ∨ x = 1) := by rw [e]; decide +kernel
  have hleaf : ∀ x < 2, t.leafKey x = true := by rw [e]; decide +kernel
  have hroots : ∀ x, t.roots x = true ↔ x = 0 ∨ x = 1 := by
    intro x
    by_cases hx : x < 2
    · exact hroot x hx
    · constructor
      · intro h
        obtain ⟨n, n1, _⟩ := (H.root x).1 h
        exact absurd (hlt x n n1) hx
      · intro h; omega
  have c0 : ∃ n, t.tree 0 = some n ∧ n.coord = ⟨⟨0, 0, 0⟩, ⟨79, 79, 79⟩⟩ ∧ n.linked = 3 ∧ n.isLeaf = true := by
    have : (t.tree 0).map (fun n => (n.coord, n.linked, n.isLeaf)) = some (⟨⟨0, 0, 0⟩, ⟨79, 79, 79⟩⟩, 3, true) := by rw [e]; decide +kernel
    obtain ⟨n, hn, hx⟩ := Option.map_eq_some_iff.1 this
    simp only [Prod.mk.injEq] at hx
    exact ⟨n, hn, hx⟩
  have c1 : ∃ n, t.tree 1 = some n ∧ n.coord = ⟨⟨80, 0, 0⟩, ⟨159, 79, 79⟩⟩ ∧ n.linked = 5 ∧ n.isLeaf = true := by
    have : (t.tree 1).map (fun n => (n.coord, n.linked, n.isLeaf)) = some (⟨⟨80, 0, 0⟩, ⟨159, 79, 79⟩⟩, 5, true) := by rw [e]; decide +kernel
    obtain ⟨n, hn, hx⟩ := Option.map_eq_some_iff.1 this
    simp only [Prod.mk.injEq] at hx
    exact ⟨n, hn, hx⟩
  obtain ⟨n0, t0, k0, l0, f0⟩ := c0
  obtain ⟨n1, t1, k1, l1, f1⟩ := c1
  have hcases : ∀ x n, t.tree x = some n → (x = 0 ∧ n = n0) ∨ (x = 1 ∧ n = n1) := by
    intro x n hx
    have := hlt x n hx
    rcases (by omega : x = 0 ∨ x = 1) with rfl | rfl
    · rw [t0, Option.some.injEq] at hx; exact Or.inl ⟨rfl, hx.symm⟩
    · rw [t1, Option.some.injEq] at hx; exact Or.inr ⟨rfl, hx.symm⟩
  refine ⟨t, hh, ?_, ?_, ?_, ?_, ⟨?_, ?_, ?_, ?_⟩, ⟨by decide, by decide, ?_, ?_⟩, ?_, ?_, ?_, ?_, ?_, ?_⟩
  · intro x n hx hl
    rcases hcases x n hx with ⟨-, rfl⟩ | ⟨-, rfl⟩
    · rw [f0] at hl; cases hl
    · rw [f1] at hl; cases hl
  · intro a b na nb p ha hb hna hnb ca cb
    rcases hcases a na hna with ⟨rfl, rfl⟩ | ⟨rfl, rfl⟩ <;> rcases hcases b nb hnb with ⟨rfl, rfl⟩ | ⟨rfl, rfl⟩
    · rfl
    · rw [k0] at ca; rw [k1] at cb
      obtain ⟨⟨_, h1⟩, _⟩ := ca
      obtain ⟨⟨h2, _⟩, _⟩ := cb
      dsimp only at h1 h2
      omega
    · rw [k1] at ca; rw [k0] at cb
      obtain ⟨⟨h1, _⟩, _⟩ := ca
      obtain ⟨⟨_, h2⟩, _⟩ := cb
      dsimp only at h1 h2
      omega
    · rfl
  · intro r n hr hn
    rcases hcases r n hn with ⟨-, rfl⟩ | ⟨-, rfl⟩
    · rw [k0]; decide
    · rw [k1]; decide
  · intro x; rw [hroots]; simp
  · intro d hd
    simp only [puWorld, List.mem_cons, List.not_mem_nil, or_false] at hd
    rcases hd with rfl | rfl <;> simp [MapOk]
  · intro d hd kv hkv
    simp only [puWorld, List.mem_cons, List.not_mem_nil, or_false] at hd
    rcases hd with rfl | rfl <;> (rw [List.mem_singleton] at hkv; subst hkv; exact puGood _ _ rfl (by decide))
  · intro r d hr kv hkv
    match r, hr with
    | 0, hr => cases hr; rw [List.mem_singleton] at hkv; subst hkv; rfl
    | 1, hr => cases hr; rw [List.mem_singleton] at hkv; subst hkv; rfl
  · intro d hd kv hkv
    simp only [puWorld, List.mem_cons, List.not_mem_nil, or_false] at hd
    rcases hd with rfl | rfl <;> (rw [List.mem_singleton] at hkv; subst hkv; unfold u64max; decide)
  · intro l k hl hk
    rcases hcases l k hk with ⟨rfl, rfl⟩ | ⟨rfl, rfl⟩
    · exact ⟨_, List.mem_cons_self, l0.symm, k0.symm⟩
    · exact ⟨_, List.mem_cons_of_mem _ List.mem_cons_self, l1.symm, k1.symm⟩
  · intro p hp
    simp only [puGlobal, List.mem_cons, List.not_mem_nil, or_false] at hp
    rcases hp with rfl | rfl
    · exact ⟨0, n0, hleaf 0 (by omega), t0, l0.symm, k0.symm⟩
    · exact ⟨1, n1, hleaf 1 (by omega), t1, l1.symm, k1.symm⟩
  · intro p hp
    simp only [puGlobal, List.mem_cons, List.not_mem_nil, or_false] at hp
    rcases hp with rfl | rfl
    · exact ⟨_, List.mem_cons_self, by simp⟩
    · exact ⟨_, List.mem_cons_of_mem _ List.mem_cons_self, by simp⟩
  · intro d hd kv hkv
    simp only [puWorld, List.mem_cons, List.not_mem_nil, or_false] at hd
    rcases hd with rfl | rfl <;> (rw [List.mem_singleton] at hkv; subst hkv)
    · exact ⟨_, List.mem_cons_self, rfl⟩
    · exact ⟨_, List.mem_cons_of_mem _ List.mem_cons_self, rfl⟩
  · intro l hl
    simp only [puIns, List.mem_cons, List.not_mem_nil, or_false] at hl
    rcases hl with rfl | rfl <;> exact ⟨puGood _ _ rfl (by decide), by decide⟩
  · intro r d loc hd hl
    match r, hd, hl with
    | 0, hd, hl =>
      cases hd; cases hl
      intro p hp he
      rw [List.mem_singleton] at hp
      subst hp; simp
    | 1, hd, hl =>
      cases hd; cases hl
      intro p hp he
      simp only [List.mem_cons, List.not_mem_nil, or_false] at hp
      rcases hp with rfl | rfl
      · cases he
      · simp
  · intro r l loc hd hl
    match r, hd, hl with
    | 0, hd, hl => cases hd; cases hl; exact Or.inl ⟨_, List.mem_cons_self, rfl⟩
    | 1, hd, hl => cases hd; cases hl; exact Or.inl ⟨_, List.mem_cons_of_mem _ List.mem_cons_self, rfl⟩
  · intro o ho
    have : allObjects puWorld ++ puIns.flatMap PLayer.objects = [[[⟨0, 0, 0⟩]], [[⟨-5, 1, 7⟩]], [[⟨10, 0, 0⟩]], [[⟨2, 2, 2⟩]]] := by rfl
    rw [this] at ho
    simp only [List.mem_cons, List.not_mem_nil, or_false] at ho
    have i0 : ∀ p : V3 Int, InHalfOpen (domainBox roundedArith ⟨3, 3, 3⟩ ⟨-5, 0, 0⟩ ⟨0, 0, 0⟩ ⟨⟨0, 0, 0⟩, ⟨79, 79, 79⟩⟩).1
        (domainBox roundedArith ⟨3, 3, 3⟩ ⟨-5, 0, 0⟩ ⟨0, 0, 0⟩ ⟨⟨0, 0, 0⟩, ⟨79, 79, 79⟩⟩).2 p → Contains roundedArith ⟨3, 3, 3⟩ ⟨-5, 0, 0⟩ ⟨0, 0, 0⟩ p n0 := by
      intro p hp; unfold Contains; rw [k0]; exact hp
    have i1 : ∀ p : V3 Int, InHalfOpen (domainBox roundedArith ⟨3, 3, 3⟩ ⟨-5, 0, 0⟩ ⟨0, 0, 0⟩ ⟨⟨80, 0, 0⟩, ⟨159, 79, 79⟩⟩).1
        (domainBox roundedArith ⟨3, 3, 3⟩ ⟨-5, 0, 0⟩ ⟨0, 0, 0⟩ ⟨⟨80, 0, 0⟩, ⟨159, 79, 79⟩⟩).2 p → Contains roundedArith ⟨3, 3, 3⟩ ⟨-5, 0, 0⟩ ⟨0, 0, 0⟩ p n1 := by
      intro p hp; unfold Contains; rw [k1]; exact hp
    have r0 := (hroots 0).2 (Or.inl rfl)
    have r1 := (hroots 1).2 (Or.inr rfl)
    rcases ho with rfl | rfl | rfl | rfl
    · exact ⟨_, 0, n0, rfl, r0, t0, i0 _ (by unfold InHalfOpen; decide)⟩
    · exact ⟨_, 0, n0, rfl, r0, t0, i0 _ (by unfold InHalfOpen; decide)⟩
    · exact ⟨_, 1, n1, rfl, r1, t1, i1 _ (by unfold InHalfOpen; decide)⟩
    · exact ⟨_, 0, n0, rfl, r0, t0, i0 _ (by unfold InHalfOpen; decide)⟩

end Shamrock
