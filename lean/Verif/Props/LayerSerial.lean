import Verif.Model.LayerSerial
import Verif.Proof.Reattribute
/-! Serialization of patch data (C50). -/
namespace Shamrock

/-- The values of the layer are values of the types of the layout. -/
def PLayer.Typed (tys : List STy) (l : PLayer (List Byte)) : Prop :=
  List.Forall₂ (fun (t : STy) (f : PField (List Byte)) => t.Ok ∧ f.WF ∧ ∀ v ∈ f.buf, v.length = t.sz) tys l

/-- Size of the contents of the serialized layer: 8 bytes per field and the values, each field padded to a multiple of 8. -/
def layerBytes (tys : List STy) (l : PLayer (List Byte)) : Nat := (List.zipWith (fun t f => 8 + (f.buf.length * t.sz + 7) / 8 * 8) tys l).sum

/-- The writes made for a field. -/
def fieldW (t : STy) (sched : List Nat) (f : PField (List Byte)) : List SWr :=
  .val tyU32 (leBytes 4 f.count) :: if f.count > 0 then [.buf t f.buf f.buf.length sched] else []
def fieldL (junk : Nat → List Byte) (t : STy) (sched : List Nat) (f : PField (List Byte)) : List SLd :=
  .val tyU32 :: if f.count > 0 then [.buf true t ((List.range f.buf.length).map junk) f.buf.length sched] else []

def layerW (sched : Nat → List Nat) : Nat → List STy → PLayer (List Byte) → List SWr
  | k, t :: ts, f :: r => fieldW t (sched k) f ++ layerW sched (k + 1) ts r
  | _, _, _ => []
def layerL (junk : Nat → List Byte) (sched : Nat → List Nat) : Nat → List STy → PLayer (List Byte) → List SLd
  | k, t :: ts, f :: r => fieldL junk t (sched k) f ++ layerL junk sched (k + 1) ts r
  | _, _, _ => []

theorem runW_append (a b : List SWr) : ∀ h, runW (a ++ b) h = (runW a h).bind fun h => runW b h := by
  induction a with
  | nil => intro h; rfl
  | cons w a ih =>
    intro h
    simp only [List.cons_append, runW]
    cases hw : w.run h with
    | ok x => simp only [Res.ok_bind]; exact ih x
    | throws => rfl
    | ub => rfl

theorem count_mul {f : PField (List Byte)} (hf : f.WF) : f.count * f.nvar = f.buf.length := by
  have := hf.dvd
  unfold PField.count
  exact Nat.div_mul_cancel this

theorem count_zero {f : PField (List Byte)} (hf : f.WF) (h : ¬ f.count > 0) : f.buf = [] := by
  have := count_mul hf
  rw [show f.count = 0 by omega, Nat.zero_mul] at this
  exact List.eq_nil_of_length_eq_zero this.symm

theorem field_ser_eq (t : STy) (sched : List Nat) {f : PField (List Byte)} (hf : f.WF) (h : SerH) : f.serializeBuf t sched h = runW (fieldW t sched f) h := by
  unfold PField.serializeBuf fieldW
  rw [objCnt_ok hf]
  simp only [Res.bind, runW, SWr.run]
  by_cases hc : f.count > 0
  · simp only [if_pos hc]
    have : f.valCnt = .ok f.buf.length := by unfold PField.valCnt narrow32; rw [if_pos hf.lt]
    rw [this]
    cases hw : h.writeVal tyU32 (leBytes 4 f.count) with
    | ok x => 
      simp only [Res.ok_bind, runW, SWr.run]
      cases x.writeBuf t f.buf f.buf.length sched <;> rfl
    | throws => rfl
    | ub => rfl
  · simp only [if_neg hc]
    cases hw : h.writeVal tyU32 (leBytes 4 f.count) <;> rfl

theorem layer_ser_eq (sched : Nat → List Nat) {tys : List STy} {l : PLayer (List Byte)} (hl : l.Typed tys) : ∀ (k : Nat) (h : SerH),
    PLayer.serializeBuf sched k tys l h = runW (layerW sched k tys l) h := by
  induction hl with
  | nil => intro k h; rfl
  | @cons t f ts r a _ ih =>
    intro k h
    simp only [PLayer.serializeBuf, layerW]
    rw [runW_append, field_ser_eq t (sched k) a.2.1]
    simp only [ih]

theorem val4_legal (n : Nat) : (SWr.val tyU32 (leBytes 4 n)).Legal := ⟨tyU32_ok, by rw [leBytes_length]; rfl⟩

theorem layerW_legal (sched : Nat → List Nat) {tys : List STy} {l : PLayer (List Byte)} (hl : l.Typed tys) : ∀ k, ∀ w ∈ layerW sched k tys l, w.Legal := by
  induction hl with
  | nil => intro k w hw; cases hw
  | @cons t f ts r a _ ih =>
    intro k w hw
    simp only [layerW, List.mem_append] at hw
    rcases hw with hw | hw
    · unfold fieldW at hw
      rcases List.mem_cons.1 hw with rfl | hw
      · exact val4_legal _
      · split at hw
        · rw [List.mem_singleton] at hw
          subst hw
          exact ⟨a.1, Nat.le_refl _, a.2.2⟩
        · cases hw
    · exact ih _ w hw

theorem layerW_match (junk : Nat → List Byte) (sched sched' : Nat → List Nat) {tys : List STy} {l : PLayer (List Byte)} (hl : l.Typed tys) : ∀ k,
    List.Forall₂ SMatch (layerW sched k tys l) (layerL junk sched' k tys l) := by
  induction hl with
  | nil => intro k; exact .nil
  | @cons t f ts r a _ ih =>
    intro k
    simp only [layerW, layerL]
    refine List.rel_append ?_ (ih _)
    unfold fieldW fieldL
    refine .cons rfl ?_
    split
    · exact .cons ⟨rfl, rfl, by simp⟩ .nil
    · exact .nil

theorem declSum_cons (w : SWr) (ws : List SWr) : declSum (w :: ws) = w.decl.add (declSum ws) := rfl

theorem layerW_sizes (sched : Nat → List Nat) {tys : List STy} {l : PLayer (List Byte)} (hl : l.Typed tys) : layerBytes tys l < 2 ^ 40 → ∀ k,
    (declSum (layerW sched k tys l)).head + (declSum (layerW sched k tys l)).content = layerBytes tys l ∧
    ((layerW sched k tys l).map SWr.bytes).sum ≤ 3 * layerBytes tys l ∧
    ∀ s : SSize, s.head + s.content < 2 ^ 41 → PLayer.byteSize tys l s = .ok ⟨s.head + (declSum (layerW sched k tys l)).head, s.content + (declSum (layerW sched k tys l)).content⟩ := by
  have gen : layerBytes tys l < 2 ^ 40 → ∀ k,
    (declSum (layerW sched k tys l)).head + (declSum (layerW sched k tys l)).content = layerBytes tys l ∧
    ((layerW sched k tys l).map SWr.bytes).sum ≤ 3 * layerBytes tys l ∧
    ∀ s : SSize, s.head + s.content + layerBytes tys l < 2 ^ 42 → PLayer.byteSize tys l s = .ok ⟨s.head + (declSum (layerW sched k tys l)).head, s.content + (declSum (layerW sched k tys l)).content⟩ := by
    induction hl with
    | nil => intro _ k; exact ⟨rfl, Nat.le_refl _, fun s _ => rfl⟩
    | @cons t f ts r a _ ih =>
      intro hb k
      have eL : layerBytes (t :: ts) (f :: r) = 8 + (f.buf.length * t.sz + 7) / 8 * 8 + layerBytes ts r := by
        unfold layerBytes; rw [List.zipWith_cons_cons, List.sum_cons]
      rw [eL] at hb ⊢
      obtain ⟨i1, i2, i3⟩ := ih (by omega) (k + 1)
      have e0 : u64 (f.buf.length * t.sz) = f.buf.length * t.sz := u64_small _ (by omega)
      have eA := alignRepr_eq (f.buf.length * t.sz) (by omega)
      have e4 : byteSizeVal tyU32 = ⟨8, 0⟩ := by decide
      have ebuf : byteSizeBuf t f.buf.length = ⟨0, (f.buf.length * t.sz + 7) / 8 * 8⟩ := by
        unfold byteSizeBuf; rw [e0, eA]
      have evc : f.valCnt = .ok f.buf.length := by unfold PField.valCnt narrow32; rw [if_pos a.2.1.lt]
      have ebs : f.byteSize t = .ok ⟨8, (f.buf.length * t.sz + 7) / 8 * 8⟩ := by
        unfold PField.byteSize
        rw [evc]
        simp only [Res.bind]
        rw [e4, ebuf]
        unfold SSize.add
        simp only
        rw [u64_small _ (by omega), u64_small _ (by omega)]
        simp only [Nat.zero_add, Nat.add_zero]
      have eval : ((SWr.val tyU32 (leBytes 4 f.count)).bytes) = 12 := rfl
      have edecl : declSum (layerW sched k (t :: ts) (f :: r)) =
          ⟨8 + (declSum (layerW sched (k + 1) ts r)).head, (f.buf.length * t.sz + 7) / 8 * 8 + (declSum (layerW sched (k + 1) ts r)).content⟩ ∧
          ((layerW sched k (t :: ts) (f :: r)).map SWr.bytes).sum ≤ 20 + f.buf.length * t.sz + ((layerW sched (k + 1) ts r).map SWr.bytes).sum := by
        simp only [layerW]
        unfold fieldW
        generalize layerW sched (k + 1) ts r = W at i1 i2 ⊢
        rw [List.cons_append, declSum_cons, List.map_cons, List.sum_cons, eval]
        have ed4 : (SWr.val tyU32 (leBytes 4 f.count)).decl = ⟨8, 0⟩ := e4
        rw [ed4]
        by_cases hc : f.count > 0
        · rw [if_pos hc, List.cons_append, List.nil_append, declSum_cons, List.map_cons, List.sum_cons]
          have edb : (SWr.buf t f.buf f.buf.length (sched k)).decl = ⟨0, (f.buf.length * t.sz + 7) / 8 * 8⟩ := ebuf
          have ebb : (SWr.buf t f.buf f.buf.length (sched k)).bytes = f.buf.length * t.sz + 8 := rfl
          rw [edb, ebb]
          refine ⟨?_, by omega⟩
          unfold SSize.add
          simp only [SSize.mk.injEq]
          rw [u64_small (0 + _) (by omega), u64_small ((f.buf.length * t.sz + 7) / 8 * 8 + _) (by omega), u64_small _ (by omega), u64_small _ (by omega)]
          constructor <;> omega
        · have hz := count_zero a.2.1 hc
          rw [if_neg hc, List.nil_append]
          rw [hz]
          simp only [List.length_nil, Nat.zero_mul]
          refine ⟨?_, by omega⟩
          unfold SSize.add
          simp only [SSize.mk.injEq]
          rw [u64_small _ (by omega), u64_small _ (by omega)]
          constructor <;> omega
      obtain ⟨ed1, ed2⟩ := edecl
      rw [ed1]
      simp only
      refine ⟨by omega, by omega, ?_⟩
      intro s hs
      simp only [PLayer.byteSize]
      rw [ebs]
      simp only [Res.bind]
      have eadd : s.add ⟨8, (f.buf.length * t.sz + 7) / 8 * 8⟩ = ⟨s.head + 8, s.content + (f.buf.length * t.sz + 7) / 8 * 8⟩ := by
        unfold SSize.add
        simp only [SSize.mk.injEq]
        exact ⟨u64_small _ (by omega), u64_small _ (by omega)⟩
      rw [eadd, i3 _ (by simp only; omega)]
      simp only [Res.ok.injEq, SSize.mk.injEq]
      constructor <;> omega
  intro hb k
  obtain ⟨g1, g2, g3⟩ := gen hb k
  exact ⟨g1, g2, fun s hs => g3 s (by omega)⟩

theorem runL_append_inv (a b : List SLd) : ∀ (h : SerH) (va vb : List (List (List Byte))) (h3 : SerH), va.length = a.length → runL (a ++ b) h = .ok (va ++ vb, h3) →
    ∃ h1, runL a h = .ok (va, h1) ∧ runL b h1 = .ok (vb, h3) := by
  induction a with
  | nil =>
    intro h va vb h3 hl e
    have : va = [] := List.eq_nil_of_length_eq_zero hl
    subst this
    exact ⟨h, rfl, e⟩
  | cons l a ih =>
    intro h va vb h3 hl e
    cases va with
    | nil => simp at hl
    | cons v va =>
      rw [List.cons_append, List.cons_append] at e
      obtain ⟨h1, r1, e⟩ := runL_cons_inv _ _ _ _ _ _ e
      obtain ⟨h2, r2, e⟩ := ih h1 va vb h3 (by simpa using hl) e
      refine ⟨h2, ?_, e⟩
      simp only [runL]
      rw [r1]
      simp only [Res.ok_bind]
      rw [r2]; rfl

theorem field_deser (junk : Nat → List Byte) (t : STy) (s1 s2 : List Nat) {f : PField (List Byte)} (hf : f.WF) (h h1 : SerH)
    (e : runL (fieldL junk t s2 f) h = .ok (List.zipWith SExpect (fieldW t s1 f) (fieldL junk t s2 f), h1)) :
    PField.deserializeBuf junk t f.nvar s2 h = .ok (f, h1) := by
  unfold fieldW fieldL at e
  rw [List.zipWith_cons_cons] at e
  obtain ⟨h2, r1, e⟩ := runL_cons_inv _ _ _ _ _ _ e
  have q1 := runVal_inv _ _ _ _ r1
  have hlt : f.count < 2 ^ 32 := by
    have := hf.lt
    have : f.count ≤ f.buf.length := Nat.div_le_self _ _
    omega
  have k1 : leVal (leBytes 4 f.count) = f.count := leVal_leBytes 4 _ (by omega)
  unfold PField.deserializeBuf
  rw [q1]
  simp only [Res.bind]
  rw [k1]
  by_cases hc : f.count > 0
  · rw [if_pos hc] at e ⊢
    rw [if_pos hc] at e
    rw [List.zipWith_cons_cons] at e
    obtain ⟨h4, r2, e⟩ := runL_cons_inv _ _ _ _ _ _ e
    simp only [SLd.run, SExpect] at r2
    simp only [List.zipWith_nil_right, runL, Res.ok.injEq, Prod.mk.injEq, true_and] at e
    have hm : f.count * f.nvar % 2 ^ 32 = f.buf.length := by rw [count_mul hf]; exact Nat.mod_eq_of_lt hf.lt
    rw [hm, r2]
    simp only [Res.ok.injEq, Prod.mk.injEq]
    rw [List.take_length, List.drop_of_length_le (by simp), List.append_nil]
    exact ⟨rfl, e⟩
  · rw [if_neg hc] at e ⊢
    rw [if_neg hc] at e
    simp only [List.zipWith_nil_right, runL, Res.ok.injEq, Prod.mk.injEq, true_and] at e
    have hz := count_zero hf hc
    rw [e]
    simp only [Res.ok.injEq, Prod.mk.injEq, and_true]
    obtain ⟨nv, b⟩ := f
    simp only at hz
    rw [hz]

theorem layer_deser (junk : Nat → List Byte) (s1 s2 : Nat → List Nat) {tys : List STy} {l : PLayer (List Byte)} (hl : l.Typed tys) : ∀ (k : Nat) (h h3 : SerH),
    runL (layerL junk s2 k tys l) h = .ok (List.zipWith SExpect (layerW s1 k tys l) (layerL junk s2 k tys l), h3) →
    PLayer.deserializeBuf junk s2 k tys (l.map (·.nvar)) h = .ok l := by
  induction hl with
  | nil => intro k h h3 _; rfl
  | @cons t f ts r a _ ih =>
    intro k h h3 e
    have hlen : (fieldW t (s1 k) f).length = (fieldL junk t (s2 k) f).length := by
      unfold fieldW fieldL; split <;> rfl
    simp only [layerL, layerW] at e
    rw [List.zipWith_append hlen] at e
    obtain ⟨h1, e1, e2⟩ := runL_append_inv _ _ _ _ _ _ (by rw [List.length_zipWith, hlen, Nat.min_self]) e
    simp only [List.map_cons, PLayer.deserializeBuf]
    rw [field_deser junk t (s1 k) (s2 k) a.2.1 h h1 e1]
    simp only [Res.bind]
    rw [ih (k + 1) h1 h3 e2]

/-- **C50, round trip.** For every layout, every layer of that layout (any number of objects, possibly none, any values), every initial memory and
execution order: if the total size stays below 2^32 bytes, serializing the layer succeeds, the size announced is the size used, and
deserializing the bytes with the layout gives back the very same layer. -/
theorem C50_layer_roundtrip (tys : List STy) (l : PLayer (List Byte)) (hl : l.Typed tys) (hb : layerBytes tys l + 8 < 2 ^ 32) (env : SerEnv) :
    ∃ b, layerSer env tys l = .ok b ∧ b.length = layerBytes tys l + 8 ∧
      ∀ (env' : SerEnv) (junk : Nat → List Byte), layerDeser env' junk tys (l.map (·.nvar)) b = .ok l := by
  obtain ⟨z1, z2, z3⟩ := layerW_sizes env.wr hl (by omega) 0
  have hx : ∀ (env' : SerEnv) (junk : Nat → List Byte), ∃ b, layerSer env tys l = .ok b ∧ b.length = layerBytes tys l + 8 ∧ layerDeser env' junk tys (l.map (·.nvar)) b = .ok l := by
    intro env' junk
    obtain ⟨h0, h1, b, h2, h3, hlen, r1, r2, r3, r4, r5⟩ := serial_roundtrip (layerW env.wr 0 tys l) (layerL junk env'.ld 0 tys l) ⟨0, 0⟩ false env.junk env.fin env'.ext
      (layerW_legal env.wr hl 0) (layerW_match junk env.wr env'.ld hl 0) rfl (by simp only; omega) (Or.inr (by simp only; omega))
    have hd : (declSum (layerW env.wr 0 tys l)).add ⟨0, 0⟩ = declSum (layerW env.wr 0 tys l) := by
      generalize declSum (layerW env.wr 0 tys l) = D at z1
      obtain ⟨a, c⟩ := D
      unfold SSize.add
      simp only at z1 ⊢
      rw [u64_small _ (by omega), u64_small _ (by omega)]
      simp only [Nat.add_zero]
    rw [hd] at r1
    refine ⟨b, ?_, ?_, ?_⟩
    · unfold layerSer
      rw [z3 ⟨0, 0⟩ (by simp only; omega)]
      simp only [Res.bind, Nat.zero_add]
      rw [r1]
      simp only
      rw [layer_ser_eq env.wr hl, r2]
      exact r3
    · rw [hlen]; simp only; omega
    · unfold layerDeser
      rw [r4]
      exact layer_deser junk env.wr env'.ld hl 0 h2 h3 r5
  obtain ⟨b, b1, b2, -⟩ := hx env (fun _ => [])
  refine ⟨b, b1, b2, fun env' junk => ?_⟩
  obtain ⟨b', c1, -, c3⟩ := hx env' junk
  rw [b1, Res.ok.injEq] at c1
  rw [c1]; exact c3

/-- **C50, size limit.** A layer of 2^32 bytes or more (with the 8 byte preamble) is refused with an exception before anything is written. -/
theorem C50_layer_too_big (tys : List STy) (l : PLayer (List Byte)) (hl : l.Typed tys) (hb : 2 ^ 32 ≤ layerBytes tys l + 8) (hm : layerBytes tys l < 2 ^ 40) (env : SerEnv) :
    layerSer env tys l = .throws := by
  obtain ⟨z1, z2, z3⟩ := layerW_sizes env.wr hl hm 0
  unfold layerSer
  rw [z3 ⟨0, 0⟩ (by simp only; omega)]
  simp only [Res.bind, Nat.zero_add]
  rw [(C17_allocate_limit _ env.junk (by simp only; omega)).2 (by simp only; omega)]

end Shamrock
