import Verif.Proof.Serialize
/-! C17: `SerializeHelper` round trip, bounds and alignment. -/
namespace Shamrock

/-! ### Specification -/

/-- A write made by the user (`sched`: order in which the device executes the work items). -/
inductive SWr where
  | val (t : STy) (v : List Byte)
  | str (s : List Byte) (sched : List Nat)
  | buf (t : STy) (elems : List (List Byte)) (len : Nat) (sched : List Nat)

/-- A load made by the user; `dest` is the destination buffer, `dev` tells a `DeviceBuffer` from a `sycl::buffer`. -/
inductive SLd where
  | val (t : STy)
  | str (sched : List Nat)
  | buf (dev : Bool) (t : STy) (dest : List (List Byte)) (len : Nat) (sched : List Nat)

def SWr.run : SWr → SerH → Res SerH
  | .val t v, h => h.writeVal t v
  | .str s sched, h => h.writeStr s sched
  | .buf t elems len sched, h => h.writeBuf t elems len sched

/-- Loads; the result is the value, the string, or the contents of the destination buffer. -/
def SLd.run : SLd → SerH → Res (List (List Byte) × SerH)
  | .val t, h => do
    let (v, h) ← h.loadVal t
    pure ([v], h)
  | .str sched, h => do
    let (s, h) ← h.loadStr sched
    pure ([s], h)
  | .buf dev t dest len sched, h => h.loadBuf dev t dest len sched

def runW : List SWr → SerH → Res SerH
  | [], h => .ok h
  | w :: ws, h => do
    let h ← w.run h
    runW ws h

def runL : List SLd → SerH → Res (List (List (List Byte)) × SerH)
  | [], h => .ok ([], h)
  | l :: ls, h => do
    let (v, h) ← l.run h
    let (vs, h) ← runL ls h
    pure (v :: vs, h)

/-- Legal writes: values of a C++ type, strings below 2^32 characters, buffers with at least `len` elements. -/
def SWr.Legal : SWr → Prop
  | .val t v => t.Ok ∧ v.length = t.sz
  | .str s _ => s.length < 2 ^ 32
  | .buf t elems len _ => t.Ok ∧ len ≤ elems.length ∧ ∀ v ∈ elems, v.length = t.sz

/-- The load of the same kind and sizes, with a large enough destination. -/
def SMatch : SWr → SLd → Prop
  | .val t _, .val t' => t' = t
  | .str _ _, .str _ => True
  | .buf t _ len _, .buf _ t' dest len' _ => t' = t ∧ len' = len ∧ len ≤ dest.length
  | _, _ => False

/-- What the user expects to get: the value, the string, the first `len` elements written (the rest of the destination is kept). -/
def SExpect : SWr → SLd → List (List Byte)
  | .val _ v, _ => [v]
  | .str s _, _ => [s]
  | .buf _ elems len _, .buf _ _ dest _ _ => elems.take len ++ dest.drop len
  | .buf _ elems len _, _ => elems.take len

/-- The size the user declares for a write. -/
def SWr.decl : SWr → SSize
  | .val t _ => byteSizeVal t
  | .str s _ => byteSizeStr s
  | .buf t _ len _ => byteSizeBuf t len

/-- Sum of the declared sizes. -/
def declSum (ws : List SWr) : SSize := ws.foldr (fun w a => w.decl.add a) ⟨0, 0⟩

/-- An over estimate of the memory a write takes. -/
def SWr.bytes : SWr → Nat
  | .val t _ => t.sz + 8
  | .str s _ => 4 * s.length + 24
  | .buf t _ len _ => len * t.sz + 8

/-! ### Primitive operations -/

theorem al_elem (t : STy) (ht : t.Ok) (head i : Nat) (h : head % 8 = 0) : (head + i * t.sz) % t.al = 0 := by
  obtain ⟨_, h2, h3, _, _⟩ := ht
  apply Nat.mod_eq_zero_of_dvd
  exact Nat.dvd_add (Dvd.dvd.trans h3 (Nat.dvd_of_mod_eq_zero h)) (Dvd.dvd.mul_left (Dvd.dvd.mul_right h2 _) _)

theorem writeVal_spec (h : SerH) (t : STy) (v : List Byte) (ht : t.Ok) (hv : v.length = t.sz) (h8 : h.headHost % 8 = 0)
    (hbig : h.header.length < 2 ^ 62) (hh : h.headHost ≤ h.header.length) :
    (h.headHost + alignRepr t.sz > h.header.length → h.writeVal t v = .throws) ∧
    (h.headHost + alignRepr t.sz ≤ h.header.length → ∃ H, h.writeVal t v =
      .ok { h with header := H, headHost := h.headHost + alignRepr t.sz } ∧ H.length = h.header.length ∧
      HasAt H h.headHost v ∧ ∀ i, i < h.headHost → H[i]? = h.header[i]?) := by
  have hs := ht.2.2.2.2
  have ha := alignRepr_spec t.sz (by omega)
  have e : u64 (h.headHost + alignRepr t.sz) = h.headHost + alignRepr t.sz := u64_small _ (by omega)
  refine ⟨?_, ?_⟩
  · intro hc
    unfold SerH.writeVal
    simp only [e]
    rw [ if_pos hc]
  · intro hc
    unfold SerH.writeVal
    simp only [e]
    rw [ if_neg (by omega)]
    have hal := al_elem t ht h.headHost 0 h8
    simp only [Nat.zero_mul, Nat.add_zero] at hal
    obtain ⟨m', h1, h2, h3, h4⟩ := byteProg_run v h.headHost h.header (by omega)
    refine ⟨m', ?_, h2, h3, fun i hi => h4 i (Or.inl hi)⟩
    unfold storeProg
    rw [if_pos hal, h1]
    rfl

theorem loadVal_spec (h : SerH) (t : STy) (ht : t.Ok) (h8 : h.headHost % 8 = 0) (hbig : h.header.length < 2 ^ 62)
    (hh : h.headHost ≤ h.header.length) :
    (h.headHost + alignRepr t.sz > h.header.length → h.loadVal t = .throws) ∧
    (h.headHost + alignRepr t.sz ≤ h.header.length → h.loadVal t =
      .ok ((h.header.drop h.headHost).take t.sz, { h with headHost := h.headHost + alignRepr t.sz })) := by
  have hs := ht.2.2.2.2
  have ha := alignRepr_spec t.sz (by omega)
  have e : u64 (h.headHost + alignRepr t.sz) = h.headHost + alignRepr t.sz := u64_small _ (by omega)
  refine ⟨?_, ?_⟩
  · intro hc
    unfold SerH.loadVal
    simp only [e]
    rw [ if_pos hc]
  · intro hc
    unfold SerH.loadVal
    simp only [e]
    rw [ if_neg (by omega)]
    have hal := al_elem t ht h.headHost 0 h8
    simp only [Nat.zero_mul, Nat.add_zero] at hal
    unfold loadAt
    rw [if_pos ⟨hal, by omega⟩]
    rfl

theorem writeBuf_spec (h : SerH) (t : STy) (elems : List (List Byte)) (len : Nat) (sched : List Nat) (ht : t.Ok)
    (hlen : len ≤ elems.length) (hsz : ∀ v ∈ elems, v.length = t.sz) (hl : len * t.sz < 2 ^ 62) (h8 : h.headDev % 8 = 0)
    (hbig : h.storage.length < 2 ^ 62) (hh : h.headDev ≤ h.storage.length) :
    (h.headDev + alignRepr (len * t.sz) > h.storage.length → h.writeBuf t elems len sched = .throws) ∧
    (h.headDev + alignRepr (len * t.sz) ≤ h.storage.length → ∃ S, h.writeBuf t elems len sched =
      .ok { h with storage := S, headDev := h.headDev + alignRepr (len * t.sz) } ∧ S.length = h.storage.length ∧
      (∀ i, i < len → ∀ v, elems[i]? = some v → HasAt S (h.headDev + i * t.sz) v) ∧
      ∀ i, i < h.headDev → S[i]? = h.storage[i]?) := by
  have ha := alignRepr_spec (len * t.sz) (by omega)
  have e0 : u64 (len * t.sz) = len * t.sz := u64_small _ (by omega)
  have e : u64 (h.headDev + alignRepr (len * t.sz)) = h.headDev + alignRepr (len * t.sz) := u64_small _ (by omega)
  refine ⟨?_, ?_⟩
  · intro hc
    unfold SerH.writeBuf
    simp only [e0, e]
    rw [ if_pos hc]
  · intro hc
    unfold SerH.writeBuf
    simp only [e0, e]
    rw [ if_neg (by omega)]
    obtain ⟨m', h1, h2, h3, h4⟩ := writeKernel t ht.2.2.2.1 elems len h.headDev sched h.storage
      (fun i _ => al_elem t ht _ i h8) hlen hsz (by omega) (by omega)
    refine ⟨m', ?_, h2, h3, fun i hi => h4 i (Or.inl hi)⟩
    rw [h1]
    rfl

theorem loadBuf_spec (h : SerH) (dev : Bool) (t : STy) (dest : List (List Byte)) (len : Nat) (sched : List Nat) (ht : t.Ok)
    (hl : len * t.sz < 2 ^ 62) (h8 : h.headDev % 8 = 0) (hbig : h.storage.length < 2 ^ 62) (hh : h.headDev ≤ h.storage.length) :
    (h.headDev + alignRepr (len * t.sz) > h.storage.length → h.loadBuf dev t dest len sched = .throws) ∧
    (h.headDev + alignRepr (len * t.sz) ≤ h.storage.length → dest.length < len → dev = true →
      h.loadBuf dev t dest len sched = .throws) ∧
    (h.headDev + alignRepr (len * t.sz) ≤ h.storage.length → len ≤ dest.length → ∃ out, h.loadBuf dev t dest len sched =
      .ok (out, { h with headDev := h.headDev + alignRepr (len * t.sz) }) ∧ out.length = dest.length ∧
      (∀ i, i < len → out[i]? = some ((h.storage.drop (h.headDev + i * t.sz)).take t.sz)) ∧
      ∀ i, len ≤ i → out[i]? = dest[i]?) := by
  have ha := alignRepr_spec (len * t.sz) (by omega)
  have e0 : u64 (len * t.sz) = len * t.sz := u64_small _ (by omega)
  have e : u64 (h.headDev + alignRepr (len * t.sz)) = h.headDev + alignRepr (len * t.sz) := u64_small _ (by omega)
  refine ⟨?_, ?_, ?_⟩
  · intro hc
    unfold SerH.loadBuf
    simp only [e0, e]
    rw [ if_pos hc]
  · intro hc hd hv
    unfold SerH.loadBuf
    simp only [e0, e]
    rw [ if_neg (by omega), if_pos ⟨hv, hd⟩]
  · intro hc hd
    unfold SerH.loadBuf
    simp only [e0, e]
    rw [ if_neg (by omega), if_neg (by omega)]
    have hin : ∀ i, i < len → loadAt t h.storage (u64 (h.headDev + i * t.sz)) =
        some ((h.storage.drop (h.headDev + i * t.sz)).take t.sz) := by
      intro i hi
      have h3 : (i + 1) * t.sz ≤ len * t.sz := Nat.mul_le_mul_right _ (by omega)
      rw [Nat.add_mul, Nat.one_mul] at h3
      rw [u64_small _ (by omega)]
      unfold loadAt
      rw [if_pos ⟨al_elem t ht _ i h8, by omega⟩]
    obtain ⟨out, o1, o2, o3, o4⟩ := setKernel len (fun i => loadAt t h.storage (u64 (h.headDev + i * t.sz))) dest sched hd
      (fun i hi => by rw [hin i hi]; rfl)
    refine ⟨out, ?_, o2, fun i hi => by rw [o3 i hi]; exact hin i hi, o4⟩
    rw [o1]
    rfl

theorem tyU32_ok : tyU32.Ok := by unfold STy.Ok; decide
theorem tyChar_ok : tyChar.Ok := by unfold STy.Ok; decide
theorem tyU32_sz : tyU32.sz = 4 := rfl
theorem tyChar_sz : tyChar.sz = 1 := rfl

/-! ### Whole sequences -/

/-- Bytes a write uses in the header / in the device storage. -/
def SWr.useH : SWr → Nat
  | .val t _ => alignRepr t.sz
  | .str _ _ => 8
  | .buf _ _ _ _ => 0
def SWr.useD : SWr → Nat
  | .val _ _ => 0
  | .str s _ => alignRepr s.length
  | .buf t _ len _ => alignRepr (len * t.sz)

/-- Where the data of a sequence of writes lies. -/
def Lay : List SWr → Nat → Nat → List Byte → List Byte → Prop
  | [], _, _, _, _ => True
  | w :: r, hh, hd, H, S => (match w with
      | .val _ v => HasAt H hh v
      | .str s _ => HasAt H hh (leBytes 4 s.length) ∧ HasAt S hd s
      | .buf t elems len _ => ∀ i, i < len → ∀ v, elems[i]? = some v → HasAt S (hd + i * t.sz) v) ∧
    Lay r (hh + w.useH) (hd + w.useD) H S

theorem Lay_mono (ws : List SWr) : ∀ (hh hd : Nat) (H S S' : List Byte), (∀ i, hd ≤ i → S'[i]? = S[i]?) →
    Lay ws hh hd H S → Lay ws hh hd H S' := by
  induction ws with
  | nil => intros; trivial
  | cons w r ih =>
    intro hh hd H S S' he h
    refine ⟨?_, ih _ _ _ _ _ (fun i hi => he i (by omega)) h.2⟩
    have h1 := h.1
    cases w with
    | val t v => exact h1
    | str s sc => exact ⟨h1.1, h1.2.mono (fun i hi _ => he i hi)⟩
    | buf t elems len sc => exact fun i hi v hv => (h1 i hi v hv).mono (fun k hk _ => he k (by omega))

/-- Room needed. -/
def needH (ws : List SWr) : Nat := (ws.map SWr.useH).sum
def needD (ws : List SWr) : Nat := (ws.map SWr.useD).sum

structure HInv (h : SerH) : Prop where
  d8 : h.headDev % 8 = 0
  h8 : h.headHost % 8 = 0
  dle : h.headDev ≤ h.storage.length
  hle : h.headHost ≤ h.header.length
  sbig : h.storage.length < 2 ^ 62
  hbig : h.header.length < 2 ^ 62

theorem alignRepr_4 : alignRepr 4 = 8 := by decide

theorem SWr.run_spec (w : SWr) (h : SerH) (hw : w.Legal) (hi : HInv h) (hb : w.bytes < 2 ^ 62)
    (hH : h.headHost + w.useH ≤ h.header.length) (hD : h.headDev + w.useD ≤ h.storage.length) :
    ∃ h', w.run h = .ok h' ∧ h'.headerSize = h.headerSize ∧ h'.storage.length = h.storage.length ∧
      h'.header.length = h.header.length ∧ h'.headHost = h.headHost + w.useH ∧ h'.headDev = h.headDev + w.useD ∧
      (∀ i, i < h.headHost → h'.header[i]? = h.header[i]?) ∧ (∀ i, i < h.headDev → h'.storage[i]? = h.storage[i]?) ∧
      (match w with
      | .val _ v => HasAt h'.header h.headHost v
      | .str s _ => HasAt h'.header h.headHost (leBytes 4 s.length) ∧ HasAt h'.storage h.headDev s
      | .buf t elems len _ => ∀ i, i < len → ∀ v, elems[i]? = some v → HasAt h'.storage (h.headDev + i * t.sz) v) := by
  cases w with
  | val t v =>
    obtain ⟨H, h1, h2, h3, h4⟩ := (writeVal_spec h t v hw.1 hw.2 hi.h8 hi.hbig hi.hle).2 hH
    exact ⟨_, h1, rfl, rfl, h2, rfl, rfl, h4, fun _ _ => rfl, h3⟩
  | str s sc =>
    simp only [SWr.useH] at hH
    simp only [SWr.useD] at hD
    simp only [SWr.bytes] at hb
    simp only [SWr.Legal] at hw
    obtain ⟨H, h1, h2, h3, h4⟩ := (writeVal_spec h tyU32 (leBytes 4 s.length) tyU32_ok (leBytes_length _ _) hi.h8 hi.hbig
      hi.hle).2 (by rw [tyU32_sz, alignRepr_4]; exact hH)
    obtain ⟨S, g1, g2, g3, g4⟩ := (writeBuf_spec { h with header := H, headHost := h.headHost + alignRepr tyU32.sz } tyChar
      (s.map (fun b => [b])) s.length sc tyChar_ok (by simp) (by intro v hv; obtain ⟨b, _, rfl⟩ := List.mem_map.1 hv; rfl)
      (by rw [tyChar_sz]; omega) hi.d8 hi.sbig hi.dle).2 (by rw [tyChar_sz, Nat.mul_one]; exact hD)
    refine ⟨⟨h.headerSize, S, H, h.headDev + alignRepr (s.length * tyChar.sz), h.headHost + alignRepr tyU32.sz⟩, ?_, rfl, g2, h2, ?_, ?_,
      h4, g4, h3, ?_⟩
    · show (h.writeVal tyU32 (leBytes 4 s.length) >>= fun h => h.writeBuf tyChar (s.map (fun b => [b])) s.length sc) = _
      rw [h1]
      exact g1
    · show h.headHost + alignRepr tyU32.sz = _
      rw [tyU32_sz, alignRepr_4]; rfl
    · show h.headDev + alignRepr (s.length * tyChar.sz) = _
      rw [tyChar_sz, Nat.mul_one]; rfl
    · intro j hj
      have := g3 j hj [s[j]] (by simp [hj]) 0 (by simp)
      simp only [tyChar_sz, Nat.mul_one, Nat.add_zero] at this
      rw [this, List.getElem?_eq_getElem hj]; rfl
  | buf t elems len sc =>
    simp only [SWr.bytes] at hb
    obtain ⟨S, h1, h2, h3, h4⟩ := (writeBuf_spec h t elems len sc hw.1 hw.2.1 hw.2.2 (by omega) hi.d8 hi.sbig hi.dle).2 hD
    exact ⟨_, h1, rfl, h2, rfl, rfl, rfl, fun _ _ => rfl, h4, h3⟩

theorem useH8 (w : SWr) (hw : w.Legal) : w.useH % 8 = 0 := by
  cases w with
  | val t v => exact (alignRepr_spec t.sz (by have := hw.1.2.2.2.2; omega)).1
  | str s sc => exact (by decide : 8 % 8 = 0)
  | buf t elems len sc => rfl

theorem useD8 (w : SWr) (hb : w.bytes < 2 ^ 62) : w.useD % 8 = 0 := by
  cases w with
  | val t v => rfl
  | str s sc => simp only [SWr.bytes] at hb; exact (alignRepr_spec s.length (by omega)).1
  | buf t elems len sc => simp only [SWr.bytes] at hb; exact (alignRepr_spec (len * t.sz) (by omega)).1

theorem runW_spec (ws : List SWr) : ∀ (h : SerH), (∀ w ∈ ws, w.Legal) → (∀ w ∈ ws, w.bytes < 2 ^ 62) → HInv h →
    h.headHost + needH ws ≤ h.header.length → h.headDev + needD ws ≤ h.storage.length →
    ∃ h', runW ws h = .ok h' ∧ h'.headerSize = h.headerSize ∧ h'.storage.length = h.storage.length ∧
      h'.header.length = h.header.length ∧ (∀ i, i < h.headHost → h'.header[i]? = h.header[i]?) ∧
      (∀ i, i < h.headDev → h'.storage[i]? = h.storage[i]?) ∧ Lay ws h.headHost h.headDev h'.header h'.storage := by
  induction ws with
  | nil => intro h _ _ _ _ _; exact ⟨h, rfl, rfl, rfl, rfl, fun _ _ => rfl, fun _ _ => rfl, trivial⟩
  | cons w r ih =>
    intro h hl hb hi hH hD
    have hwl := hl w List.mem_cons_self
    have hwb := hb w List.mem_cons_self
    simp only [needH, needD, List.map_cons, List.sum_cons] at hH hD
    obtain ⟨h1, a0, a1, a2, a3, a4, a5, a6, a7, a8⟩ := w.run_spec h hwl hi hwb (by omega) (by omega)
    have hi1 : HInv h1 := by
      refine ⟨?_, ?_, by omega, by omega, by rw [a2]; exact hi.sbig, by rw [a3]; exact hi.hbig⟩
      · rw [a5]; have := useD8 w hwb; have := hi.d8; omega
      · rw [a4]; have := useH8 w hwl; have := hi.h8; omega
    obtain ⟨h', b0, b1, b2, b3, b4, b5, b6⟩ := ih h1 (fun x hx => hl x (List.mem_cons_of_mem _ hx))
      (fun x hx => hb x (List.mem_cons_of_mem _ hx)) hi1 (by simp only [needH]; omega) (by simp only [needD]; omega)
    refine ⟨h', ?_, by rw [b1, a1], by rw [b2, a2], by rw [b3, a3], fun i hi' => by rw [b4 i (by omega), a6 i hi'],
      fun i hi' => by rw [b5 i (by omega), a7 i hi'], ?_⟩
    · simp only [runW]
      rw [a0]
      exact b0
    · refine ⟨?_, by rw [← a4, ← a5]; exact b6⟩
      cases w with
      | val t v =>
        refine a8.mono (fun i h1' h2' => b4 i ?_)
        rw [a4]
        have := (alignRepr_spec t.sz (by have := hwl.1.2.2.2.2; omega)).2.1
        have := hwl.2
        simp only [SWr.useH]; omega
      | str s sc =>
        refine ⟨a8.1.mono (fun i h1' h2' => b4 i ?_), a8.2.mono (fun i h1' h2' => b5 i ?_)⟩
        · rw [a4]; rw [leBytes_length] at h2'; simp only [SWr.useH]; omega
        · rw [a5]
          simp only [SWr.bytes] at hwb
          have := (alignRepr_spec s.length (by omega)).2.1
          simp only [SWr.useD]; omega
      | buf t elems len sc =>
        intro i hi' v hv
        refine (a8 i hi' v hv).mono (fun k h1' h2' => b5 k ?_)
        rw [a5]
        simp only [SWr.bytes] at hwb
        have h9 := (alignRepr_spec (len * t.sz) (by omega)).2.1
        have h10 : (i + 1) * t.sz ≤ len * t.sz := Nat.mul_le_mul_right _ (by omega)
        rw [Nat.add_mul, Nat.one_mul] at h10
        have h11 := hwl.2.2 v (List.mem_of_getElem? hv)
        simp only [SWr.useD]; omega

theorem SLd.run_spec (w : SWr) (l : SLd) (h : SerH) (hw : w.Legal) (hm : SMatch w l) (hi : HInv h) (hb : w.bytes < 2 ^ 62)
    (hH : h.headHost + w.useH ≤ h.header.length) (hD : h.headDev + w.useD ≤ h.storage.length)
    (hlay : Lay [w] h.headHost h.headDev h.header h.storage) :
    l.run h = .ok (SExpect w l, { h with headHost := h.headHost + w.useH, headDev := h.headDev + w.useD }) := by
  have hlay := hlay.1
  cases w with
  | val t v =>
    cases l with
    | val t' =>
      have ht : t' = t := hm
      subst ht
      have := (loadVal_spec h t' hw.1 hi.h8 hi.hbig hi.hle).2 hH
      simp only [SLd.run, SExpect, SWr.useH, SWr.useD]
      rw [this, ← hw.2, hlay.slice]
      rfl
    | str _ => exact absurd hm (by simp [SMatch])
    | buf _ _ _ _ _ => exact absurd hm (by simp [SMatch])
  | str s sc =>
    cases l with
    | val t' => exact absurd hm (by simp [SMatch])
    | buf _ _ _ _ _ => exact absurd hm (by simp [SMatch])
    | str sc' =>
      simp only [SWr.useH] at hH
      simp only [SWr.useD] at hD
      simp only [SWr.bytes] at hb
      simp only [SWr.Legal] at hw
      have h1 := (loadVal_spec h tyU32 tyU32_ok hi.h8 hi.hbig hi.hle).2 (by rw [tyU32_sz, alignRepr_4]; exact hH)
      have h2 := hlay.1.slice
      rw [leBytes_length] at h2
      rw [tyU32_sz, h2, alignRepr_4] at h1
      obtain ⟨out, o1, o2, o3, o4⟩ := (loadBuf_spec { h with headHost := h.headHost + 8 } false tyChar
        (List.replicate s.length [0#8]) s.length sc' tyChar_ok (by rw [tyChar_sz]; omega) hi.d8 hi.sbig hi.dle).2.2
        (by rw [tyChar_sz, Nat.mul_one]; exact hD) (by simp)
      have hout : out = s.map (fun b => [b]) := by
        apply List.ext_getElem?
        intro i
        by_cases hi' : i < s.length
        · rw [o3 i hi']
          have h3 : HasAt h.storage (h.headDev + i) [s[i]] := by
            intro j hj
            have : j = 0 := by simpa using hj
            subst this
            rw [Nat.add_zero, hlay.2 i hi', List.getElem?_eq_getElem hi']; rfl
          have h4 := h3.slice
          simp only [List.length_singleton] at h4
          simp only [tyChar_sz, Nat.mul_one]
          rw [h4]; simp [hi']
        · rw [List.getElem?_eq_none (by rw [o2, List.length_replicate]; omega), List.getElem?_eq_none (by rw [List.length_map]; omega)]
      show (h.loadStr sc' >>= fun x => pure ([x.1], x.2)) = _
      unfold SerH.loadStr
      rw [h1]
      simp only [Res.ok_bind]
      rw [leVal_leBytes 4 _ (by norm_num; omega), o1]
      simp only [Res.ok_bind, Res.pure_eq]
      rw [hout, tyChar_sz, Nat.mul_one]
      simp only [SExpect, SWr.useH, SWr.useD]
      have : (List.map (fun b => [b]) s).flatten = s := by
        clear * -
        induction s with
        | nil => rfl
        | cons a r ih => simp [ih]
      rw [this]
  | buf t elems len sc =>
    cases l with
    | val t' => exact absurd hm (by simp [SMatch])
    | str _ => exact absurd hm (by simp [SMatch])
    | buf dev t' dest len' sc' =>
      obtain ⟨rfl, rfl, hm3⟩ : t' = t ∧ len' = len ∧ len ≤ dest.length := hm
      simp only [SWr.bytes] at hb
      obtain ⟨out, o1, o2, o3, o4⟩ := (loadBuf_spec h dev t' dest len' sc' hw.1 (by omega) hi.d8 hi.sbig hi.dle).2.2 hD hm3
      have hout : out = elems.take len' ++ dest.drop len' := by
        apply List.ext_getElem?
        intro i
        have hlen : (elems.take len').length = len' := by simp; exact hw.2.1
        by_cases hi' : i < len'
        · have h1 : i < elems.length := by have := hw.2.1; omega
          rw [o3 i hi', List.getElem?_append_left (by omega), List.getElem?_take_of_lt hi', List.getElem?_eq_getElem h1]
          have h2 := hlay i hi' elems[i] (List.getElem?_eq_getElem h1)
          have h3 := h2.slice
          rw [hw.2.2 _ (List.getElem_mem h1)] at h3
          rw [h3]
        · rw [o4 i (by omega), List.getElem?_append_right (by omega), hlen, List.getElem?_drop]
          congr 1; omega
      simp only [SLd.run, SExpect, SWr.useH, SWr.useD, Nat.add_zero]
      rw [o1, hout]

theorem runL_spec (ws : List SWr) : ∀ (ls : List SLd) (h : SerH), (∀ w ∈ ws, w.Legal) → (∀ w ∈ ws, w.bytes < 2 ^ 62) →
    List.Forall₂ SMatch ws ls → HInv h → h.headHost + needH ws ≤ h.header.length → h.headDev + needD ws ≤ h.storage.length →
    Lay ws h.headHost h.headDev h.header h.storage →
    ∃ h', runL ls h = .ok (List.zipWith SExpect ws ls, h') := by
  induction ws with
  | nil => intro ls h _ _ hm _ _ _ _; cases hm; exact ⟨h, rfl⟩
  | cons w r ih =>
    intro ls h hl hb hm hi hH hD hlay
    cases hm with
    | cons hm1 hm2 =>
      rename_i l ls
      have hwl := hl w List.mem_cons_self
      have hwb := hb w List.mem_cons_self
      simp only [needH, needD, List.map_cons, List.sum_cons] at hH hD
      have a0 := SLd.run_spec w l h hwl hm1 hi hwb (by omega) (by omega) ⟨hlay.1, trivial⟩
      have hi1 : HInv { h with headHost := h.headHost + w.useH, headDev := h.headDev + w.useD } := by
        refine ⟨?_, ?_, by show h.headDev + w.useD ≤ h.storage.length; omega, by show h.headHost + w.useH ≤ h.header.length; omega, hi.sbig, hi.hbig⟩
        · show (h.headDev + w.useD) % 8 = 0
          have := useD8 w hwb; have := hi.d8; omega
        · show (h.headHost + w.useH) % 8 = 0
          have := useH8 w hwl; have := hi.h8; omega
      obtain ⟨h', b0⟩ := ih ls _ (fun x hx => hl x (List.mem_cons_of_mem _ hx))
        (fun x hx => hb x (List.mem_cons_of_mem _ hx)) hm2 hi1
        (by show h.headHost + w.useH + needH r ≤ h.header.length; simp only [needH]; omega)
        (by show h.headDev + w.useD + needD r ≤ h.storage.length; simp only [needD]; omega) hlay.2
      refine ⟨h', ?_⟩
      simp only [runL]
      rw [a0]
      simp only [Res.ok_bind]
      rw [b0]
      rfl

theorem declSum_spec (ws : List SWr) : (∀ w ∈ ws, w.Legal) → (ws.map SWr.bytes).sum < 2 ^ 62 →
    needH ws ≤ (declSum ws).head ∧ needD ws ≤ (declSum ws).content ∧ (declSum ws).head % 8 = 0 ∧
      (declSum ws).head + (declSum ws).content ≤ (ws.map SWr.bytes).sum := by
  induction ws with
  | nil => intro _ _; exact ⟨le_refl _, le_refl _, rfl, le_refl _⟩
  | cons w r ih =>
    intro hl hb
    simp only [List.map_cons, List.sum_cons] at hb ⊢
    obtain ⟨i1, i2, i3, i4⟩ := ih (fun x hx => hl x (List.mem_cons_of_mem _ hx)) (by omega)
    have hw := hl w List.mem_cons_self
    have key : w.useH ≤ w.decl.head ∧ w.useD ≤ w.decl.content ∧ w.decl.head % 8 = 0 ∧
        w.decl.head + w.decl.content ≤ w.bytes := by
      cases w with
      | val t v =>
        have := alignRepr_spec t.sz (by have := hw.1.2.2.2.2; omega)
        simp only [SWr.decl, SWr.useH, SWr.useD, byteSizeVal, SWr.bytes]; omega
      | str s sc =>
        simp only [SWr.bytes] at hb
        have e1 : u64 (s.length * 4) = s.length * 4 := u64_small _ (by omega)
        have h1 := alignRepr_spec s.length (by omega)
        have h2 := alignRepr_spec (s.length * 4) (by omega)
        have e2 : u64 (0 + alignRepr (s.length * 4)) = alignRepr (s.length * 4) := by
          rw [Nat.zero_add]; exact u64_small _ (by omega)
        have h3 : s.length * 4 ≥ s.length := by omega
        have h4 := alignRepr_eq s.length (by omega)
        have h5 := alignRepr_eq (s.length * 4) (by omega)
        simp only [SWr.decl, SWr.useH, SWr.useD, byteSizeStr, byteSizeVal, byteSizeBuf, SSize.add, SWr.bytes, tyU32_sz, e1,
          alignRepr_4, e2]
        refine ⟨by decide, by omega, by decide, ?_⟩
        show u64 (8 + 0) + _ ≤ _
        rw [u64_small _ (by omega)]
        omega
      | buf t elems len sc =>
        simp only [SWr.bytes] at hb
        have e1 : u64 (len * t.sz) = len * t.sz := u64_small _ (by omega)
        have h1 := alignRepr_spec (len * t.sz) (by omega)
        have ed : (SWr.buf t elems len sc).decl = ⟨0, alignRepr (len * t.sz)⟩ := by simp only [SWr.decl, byteSizeBuf, e1]
        rw [ed]
        refine ⟨le_refl _, le_refl _, rfl, ?_⟩
        show 0 + alignRepr (len * t.sz) ≤ len * t.sz + 8
        omega
    have e : declSum (w :: r) = w.decl.add (declSum r) := rfl
    have e1 : u64 (w.decl.head + (declSum r).head) = w.decl.head + (declSum r).head := u64_small _ (by omega)
    have e2 : u64 (w.decl.content + (declSum r).content) = w.decl.content + (declSum r).content := u64_small _ (by omega)
    rw [e]
    simp only [SSize.add, e1, e2, needH, needD, List.map_cons, List.sum_cons] at *
    omega

theorem allocate_spec (sz : SSize) (large : Bool) (junk : Nat → Byte) (hb : sz.head + sz.content + 8 < 2 ^ 62) :
    (large = false → 2 ^ 32 ≤ sz.head + sz.content + 8 → SerH.allocate sz large junk = .throws) ∧
    (large = true ∨ sz.head + sz.content + 8 < 2 ^ 32 → ∃ S, SerH.allocate sz large junk =
      .ok ⟨sz.head, S, List.replicate sz.head 0#8, 8 + sz.head, 0⟩ ∧ S.length = sz.head + sz.content + 8 ∧
        HasAt S 0 (leBytes 8 sz.head)) := by
  have e : u64 (sz.head + sz.content + preHead) = sz.head + sz.content + 8 := u64_small _ (by unfold preHead; omega)
  have e2 : u64 (preHead + sz.head) = 8 + sz.head := u64_small _ (by unfold preHead; omega)
  unfold SerH.allocate
  simp only [e, e2]
  refine ⟨?_, ?_⟩
  · intro h1 h2
    rw [if_pos ⟨h1, h2⟩]
  · intro h1
    rw [if_neg (by rintro ⟨h2, h3⟩; rcases h1 with h1 | h1; · rw [h1] at h2; cases h2
                   · omega)]
    unfold writePrehead
    rw [if_pos (by simp)]
    refine ⟨_, rfl, by simp [leBytes_length]; omega, ?_⟩
    intro j hj
    rw [Nat.zero_add, List.getElem?_append_left hj]

theorem finalize_ofBuffer (h : SerH) (large : Bool) (s1 s2 : List Nat) (hl : large = true ∨ h.storage.length < 2 ^ 32)
    (hp : HasAt h.storage 0 (leBytes 8 h.headerSize)) (hhl : h.header.length = h.headerSize)
    (hst : 8 + h.headerSize ≤ h.storage.length) (hbig : h.storage.length < 2 ^ 62) :
    ∃ bytes, h.finalize s1 = .ok bytes ∧ bytes.length = h.storage.length ∧
      (∀ i, 8 + h.headerSize ≤ i → bytes[i]? = h.storage[i]?) ∧ HasAt bytes 0 (leBytes 8 h.headerSize) ∧
      SerH.ofBuffer bytes large s2 = .ok ⟨h.headerSize, bytes, h.header, 8 + h.headerSize, 0⟩ := by
  obtain ⟨m', f1, f2, f3, f4⟩ := headerKernel h.header h.storage s1 (by unfold preHead; omega)
  rw [hhl] at f1
  have hp' : HasAt m' 0 (leBytes 8 h.headerSize) := by
    refine hp.mono (fun i _ hi => f4 i (Or.inl ?_))
    rw [leBytes_length] at hi
    unfold preHead; omega
  refine ⟨m', f1, f2, fun i hi => f4 i (Or.inr (by unfold preHead; omega)), hp', ?_⟩
  have hs := hp'.slice
  rw [leBytes_length, List.drop_zero] at hs
  unfold SerH.ofBuffer
  rw [if_neg (by rintro ⟨h2, h3⟩; rcases hl with h1 | h1; · rw [h1] at h2; cases h2
                 · omega)]
  unfold extractPrehead
  rw [if_neg (by omega), if_pos (by omega), hs, leVal_leBytes 8 _ (by norm_num; omega)]
  simp only [Res.ok_bind]
  obtain ⟨out, o1, o2, o3, o4⟩ := setKernel h.headerSize (fun i => m'[i + preHead]?) (List.replicate h.headerSize 0#8) s2
    (by simp) (fun i hi => by
      rw [List.getElem?_eq_getElem (by unfold preHead; omega)]; rfl)
  have hout : out = h.header := by
    apply List.ext_getElem?
    intro i
    by_cases hi : i < h.headerSize
    · rw [o3 i hi, show i + preHead = preHead + i by omega]
      exact f3 i (by omega)
    · rw [o4 i (by omega), List.getElem?_eq_none (by simp; omega), List.getElem?_eq_none (by omega)]
  unfold extractHeader
  rw [o1, hout]
  simp only [Res.ofOpt_some, Res.ok_bind, Res.pure_eq]
  rw [u64_small (preHead + h.headerSize) (by unfold preHead; omega)]
  rfl

theorem le_sum_of_mem' (l : List Nat) (x : Nat) (h : x ∈ l) : x ≤ l.sum := by
  induction l with
  | nil => cases h
  | cons a r ih =>
    rw [List.sum_cons]
    rcases List.mem_cons.1 h with rfl | h
    · omega
    · have := ih h; omega

/-! ### Statements -/

/-- The round trip, with the length of the buffer. -/
theorem serial_roundtrip (ws : List SWr) (ls : List SLd) (extra : SSize) (large : Bool) (junk : Nat → Byte) (s1 s2 : List Nat)
    (hl : ∀ w ∈ ws, w.Legal) (hm : List.Forall₂ SMatch ws ls) (hx8 : extra.head % 8 = 0)
    (hfit : (ws.map SWr.bytes).sum + extra.head + extra.content + 8 < 2 ^ 62)
    (h32 : large = true ∨ (declSum ws).head + (declSum ws).content + extra.head + extra.content + 8 < 2 ^ 32) :
    ∃ h0 h1 bytes h2 h3, bytes.length = (declSum ws).head + (declSum ws).content + extra.head + extra.content + 8 ∧ SerH.allocate ((declSum ws).add extra) large junk = .ok h0 ∧ runW ws h0 = .ok h1 ∧
      h1.finalize s1 = .ok bytes ∧ SerH.ofBuffer bytes large s2 = .ok h2 ∧ runL ls h2 = .ok (List.zipWith SExpect ws ls, h3) := by
  obtain ⟨d1, d2, d3, d4⟩ := declSum_spec ws hl (by omega)
  have e1 : ((declSum ws).add extra).head = (declSum ws).head + extra.head := u64_small _ (by omega)
  have e2 : ((declSum ws).add extra).content = (declSum ws).content + extra.content := u64_small _ (by omega)
  generalize hsz : (declSum ws).add extra = sz at e1 e2
  obtain ⟨S, a1, a2, a3⟩ := (allocate_spec sz large junk (by omega)).2
    (h32.imp id (fun h => by omega))
  have hb : ∀ w ∈ ws, w.bytes < 2 ^ 62 := by
    intro w hw
    have := le_sum_of_mem' _ _ (List.mem_map_of_mem (f := SWr.bytes) hw)
    omega
  have hi : HInv ⟨sz.head, S, List.replicate sz.head 0#8, 8 + sz.head, 0⟩ :=
    ⟨by show (8 + sz.head) % 8 = 0; omega, rfl, by show 8 + sz.head ≤ S.length; omega, Nat.zero_le _,
     by show S.length < _; omega, by show (List.replicate sz.head 0#8).length < _; simp; omega⟩
  obtain ⟨h1, b0, b1, b2, b3, b4, b5, b6⟩ := runW_spec ws _ hl hb hi
    (by show 0 + needH ws ≤ (List.replicate sz.head 0#8).length; simp; omega)
    (by show 8 + sz.head + needD ws ≤ S.length; omega)
  have b3' : h1.header.length = sz.head := by rw [b3]; simp
  have b2' : h1.storage.length = sz.head + sz.content + 8 := by rw [b2]; exact a2
  have b1' : h1.headerSize = sz.head := b1
  obtain ⟨bytes, f1, f2, f3, f4, f5⟩ := finalize_ofBuffer h1 large s1 s2 (h32.imp id (fun h => by omega))
    (by rw [b1']
        refine a3.mono (fun i _ hi' => b5 i ?_)
        rw [leBytes_length] at hi'
        show i < 8 + sz.head
        omega) (by omega) (by omega) (by omega)
  have hi2 : HInv ⟨h1.headerSize, bytes, h1.header, 8 + h1.headerSize, 0⟩ :=
    ⟨by show (8 + h1.headerSize) % 8 = 0; omega, rfl, by show 8 + h1.headerSize ≤ bytes.length; omega, Nat.zero_le _,
     by show bytes.length < _; omega, by show h1.header.length < _; omega⟩
  obtain ⟨h3, g⟩ := runL_spec ws ls _ hl hb hm hi2 (by show 0 + needH ws ≤ h1.header.length; omega)
    (by show 8 + h1.headerSize + needD ws ≤ bytes.length; omega)
    (Lay_mono ws _ _ _ _ _ f3 (by rw [b1']; exact b6))
  exact ⟨_, h1, bytes, _, h3, by omega, a1, b0, f1, f5, g⟩

/-- **C17, round trip.** For any sequence of legal writes of any types and sizes, allocated with the sum of the declared sizes
(plus any extra), with any initial device memory and any order of execution of the work items: allocation, every write,
`finalize`, reloading the buffer and every matching load succeed (no exception, no out of bounds or misaligned access) and the
loads return exactly what was written. `large` is `allow_large_int_size`; without it the total must be below 2^32. -/
theorem C17_roundtrip (ws : List SWr) (ls : List SLd) (extra : SSize) (large : Bool) (junk : Nat → Byte) (s1 s2 : List Nat)
    (hl : ∀ w ∈ ws, w.Legal) (hm : List.Forall₂ SMatch ws ls) (hx8 : extra.head % 8 = 0)
    (hfit : (ws.map SWr.bytes).sum + extra.head + extra.content + 8 < 2 ^ 62)
    (h32 : large = true ∨ (declSum ws).head + (declSum ws).content + extra.head + extra.content + 8 < 2 ^ 32) :
    ∃ h0 h1 bytes h2 h3, SerH.allocate ((declSum ws).add extra) large junk = .ok h0 ∧ runW ws h0 = .ok h1 ∧
      h1.finalize s1 = .ok bytes ∧ SerH.ofBuffer bytes large s2 = .ok h2 ∧ runL ls h2 = .ok (List.zipWith SExpect ws ls, h3) := by
  obtain ⟨h0, h1, bytes, h2, h3, -, a⟩ := serial_roundtrip ws ls extra large junk s1 s2 hl hm hx8 hfit h32
  exact ⟨h0, h1, bytes, h2, h3, a⟩

/-- **C17, allocation limit.** Without `allow_large_int_size` a total (with the 8 byte preamble) of 2^32 bytes or more throws. -/
theorem C17_allocate_limit (sz : SSize) (junk : Nat → Byte) (hb : sz.head + sz.content + 8 < 2 ^ 62) :
    SerH.allocate sz false junk = .throws ↔ 2 ^ 32 ≤ sz.head + sz.content + 8 := by
  obtain ⟨h1, h2⟩ := allocate_spec sz false junk hb
  constructor
  · intro h
    by_contra hc
    obtain ⟨S, e, _⟩ := h2 (Or.inr (by omega))
    rw [h] at e; cases e
  · exact h1 rfl

/-- Loads a user may make: C++ types; the destination of a `sycl::buffer` load is large enough; sizes that exist in memory. -/
def SLd.Legal : SLd → Prop
  | .val t => t.Ok
  | .str _ => True
  | .buf dev t dest len _ => t.Ok ∧ len * t.sz < 2 ^ 62 ∧ (dev = false → len ≤ dest.length)

/-- Helpers a program can hold: allocated with any declared size (multiples of 8, as `serialize_byte_size` gives), after any
writes and loads in any order, or rebuilt from a finalized buffer. -/
inductive SReach : SerH → Prop where
  | alloc (sz : SSize) (large : Bool) (junk : Nat → Byte) (h : SerH) (h8 : sz.head % 8 = 0)
      (hb : sz.head + sz.content + 8 < 2 ^ 62) (e : SerH.allocate sz large junk = .ok h) : SReach h
  | wr (h h' : SerH) (w : SWr) (hr : SReach h) (hw : w.Legal) (hb : w.bytes < 2 ^ 62) (e : w.run h = .ok h') : SReach h'
  | ld (h h' : SerH) (l : SLd) (v : List (List Byte)) (hr : SReach h) (hl : l.Legal) (e : l.run h = .ok (v, h')) : SReach h'
  | reload (h h' : SerH) (large : Bool) (s1 s2 : List Nat) (bytes : List Byte) (hr : SReach h) (e1 : h.finalize s1 = .ok bytes)
      (e2 : SerH.ofBuffer bytes large s2 = .ok h') : SReach h'

/-- Invariant of reachable helpers. -/
structure SInv (h : SerH) : Prop extends HInv h where
  hs8 : h.headerSize % 8 = 0
  hl : h.header.length = h.headerSize
  pre : HasAt h.storage 0 (leBytes 8 h.headerSize)
  low : 8 + h.headerSize ≤ h.headDev

theorem SInv.write {h h' : SerH} {w : SWr} (hi : SInv h) (hw : w.Legal) (hb : w.bytes < 2 ^ 62)
    (hH : h.headHost + w.useH ≤ h.header.length) (hD : h.headDev + w.useD ≤ h.storage.length) (e : w.run h = .ok h') : SInv h' := by
  obtain ⟨h1, a0, a1, a2, a3, a4, a5, a6, a7, a8⟩ := w.run_spec h hw hi.toHInv hb hH hD
  rw [a0] at e; injection e with e; subst e
  refine ⟨⟨?_, ?_, by omega, by omega, by rw [a2]; exact hi.sbig, by rw [a3]; exact hi.hbig⟩, by rw [a1]; exact hi.hs8,
    by rw [a3, a1]; exact hi.hl, ?_, by rw [a1, a5]; have := hi.low; omega⟩
  · rw [a5]; have := useD8 w hb; have := hi.d8; omega
  · rw [a4]; have := useH8 w hw; have := hi.h8; omega
  · rw [a1]
    refine hi.pre.mono (fun i _ h2 => a7 i ?_)
    rw [leBytes_length] at h2
    have := hi.low
    omega

/-- Exactly what a legal write does on a good helper. -/
theorem SWr.total (w : SWr) (h : SerH) (hi : HInv h) (hw : w.Legal) (hb : w.bytes < 2 ^ 62) :
    (w.run h = .throws ∧ (h.headHost + w.useH > h.header.length ∨ h.headDev + w.useD > h.storage.length)) ∨
    ((∃ h', w.run h = .ok h') ∧ h.headHost + w.useH ≤ h.header.length ∧ h.headDev + w.useD ≤ h.storage.length) := by
  by_cases hH : h.headHost + w.useH ≤ h.header.length
  · by_cases hD : h.headDev + w.useD ≤ h.storage.length
    · obtain ⟨h1, a0, _⟩ := w.run_spec h hw hi hb hH hD
      exact Or.inr ⟨⟨h1, a0⟩, hH, hD⟩
    · left
      refine ⟨?_, Or.inr (by omega)⟩
      cases w with
      | val t v => exact absurd hi.dle hD
      | str s sc =>
        simp only [SWr.bytes] at hb
        obtain ⟨H, h1, _⟩ := (writeVal_spec h tyU32 (leBytes 4 s.length) tyU32_ok (leBytes_length _ _) hi.h8 hi.hbig
          hi.hle).2 (by rw [tyU32_sz, alignRepr_4]; exact hH)
        have h2 := (writeBuf_spec { h with header := H, headHost := h.headHost + alignRepr tyU32.sz } tyChar
          (s.map (fun b => [b])) s.length sc tyChar_ok (by simp) (by intro v hv; obtain ⟨b, _, rfl⟩ := List.mem_map.1 hv; rfl)
          (by rw [tyChar_sz]; omega) hi.d8 hi.sbig hi.dle).1 (by rw [tyChar_sz, Nat.mul_one]; simp only [SWr.useD] at hD; show h.headDev + _ > h.storage.length; omega)
        show (h.writeVal tyU32 (leBytes 4 s.length) >>= fun h => h.writeBuf tyChar (s.map (fun b => [b])) s.length sc) = _
        rw [h1]
        exact h2
      | buf t elems len sc =>
        simp only [SWr.bytes] at hb
        exact (writeBuf_spec h t elems len sc hw.1 hw.2.1 hw.2.2 (by omega) hi.d8 hi.sbig hi.dle).1
          (by simp only [SWr.useD] at hD; omega)
  · left
    refine ⟨?_, Or.inl (by omega)⟩
    cases w with
    | val t v => exact (writeVal_spec h t v hw.1 hw.2 hi.h8 hi.hbig hi.hle).1 (by simp only [SWr.useH] at hH; omega)
    | str s sc =>
      have h1 := (writeVal_spec h tyU32 (leBytes 4 s.length) tyU32_ok (leBytes_length _ _) hi.h8 hi.hbig
          hi.hle).1 (by rw [tyU32_sz, alignRepr_4]; simp only [SWr.useH] at hH; omega)
      show (h.writeVal tyU32 (leBytes 4 s.length) >>= fun h => h.writeBuf tyChar (s.map (fun b => [b])) s.length sc) = _
      rw [h1]; rfl
    | buf t elems len sc => exact absurd hi.hle hH

/-- Exactly what a legal load does on a good helper. -/
theorem SLd.total (l : SLd) (h : SerH) (hi : HInv h) (hl : l.Legal) :
    l.run h = .throws ∨ ∃ v dh dd, l.run h = .ok (v, { h with headHost := h.headHost + dh, headDev := h.headDev + dd }) ∧
      dh % 8 = 0 ∧ dd % 8 = 0 ∧ h.headHost + dh ≤ h.header.length ∧ h.headDev + dd ≤ h.storage.length := by
  cases l with
  | val t =>
    have hs := hl.2.2.2.2
    have ha := alignRepr_spec t.sz (by omega)
    obtain ⟨h1, h2⟩ := loadVal_spec h t hl hi.h8 hi.hbig hi.hle
    by_cases hH : h.headHost + alignRepr t.sz ≤ h.header.length
    · right
      refine ⟨[(h.header.drop h.headHost).take t.sz], alignRepr t.sz, 0, ?_, ha.1, rfl, hH, hi.dle⟩
      show (h.loadVal t >>= fun x => pure ([x.1], x.2)) = _
      rw [h2 hH]; rfl
    · left
      show (h.loadVal t >>= fun x => pure ([x.1], x.2)) = _
      rw [h1 (by omega)]; rfl
  | str sc =>
    obtain ⟨h1, h2⟩ := loadVal_spec h tyU32 tyU32_ok hi.h8 hi.hbig hi.hle
    rw [tyU32_sz, alignRepr_4] at h1 h2
    show (h.loadStr sc >>= fun x => pure ([x.1], x.2)) = _ ∨ ∃ v dh dd, (h.loadStr sc >>= fun x => pure ([x.1], x.2)) = _ ∧ _
    by_cases hH : h.headHost + 8 ≤ h.header.length
    · have h2 := h2 hH
      generalize hlen : leVal ((h.header.drop h.headHost).take 4) = len
      have hlt : len < 2 ^ 32 := by
        have := leVal_lt ((h.header.drop h.headHost).take 4)
        have h9 : ((h.header.drop h.headHost).take 4).length = 4 := by simp; omega
        rw [h9] at this
        norm_num at this ⊢
        omega
      have ha := alignRepr_spec len (by omega)
      obtain ⟨g1, _, g3⟩ := loadBuf_spec { h with headHost := h.headHost + 8 } false tyChar
        (List.replicate len [0#8]) len sc tyChar_ok (by rw [tyChar_sz]; omega) hi.d8 hi.sbig hi.dle
      rw [tyChar_sz, Nat.mul_one] at g1 g3
      unfold SerH.loadStr
      rw [h2]
      simp only [Res.ok_bind]
      rw [hlen]
      by_cases hD : h.headDev + alignRepr len ≤ h.storage.length
      · obtain ⟨out, o1, _⟩ := g3 hD (by simp)
        right
        rw [o1]
        exact ⟨_, 8, alignRepr len, rfl, rfl, ha.1, hH, hD⟩
      · left
        rw [g1 (by show h.headDev + _ > h.storage.length; omega)]
        rfl
    · left
      unfold SerH.loadStr
      rw [h1 (by omega)]; rfl
  | buf dev t dest len sc =>
    obtain ⟨ht, hlz, hd⟩ := hl
    have ha := alignRepr_spec (len * t.sz) (by omega)
    obtain ⟨g1, g2, g3⟩ := loadBuf_spec h dev t dest len sc ht hlz hi.d8 hi.sbig hi.dle
    by_cases hD : h.headDev + alignRepr (len * t.sz) ≤ h.storage.length
    · by_cases hde : len ≤ dest.length
      · obtain ⟨out, o1, _⟩ := g3 hD hde
        exact Or.inr ⟨out, 0, _, o1, rfl, ha.1, hi.hle, hD⟩
      · refine Or.inl (g2 hD (by omega) ?_)
        cases dev with
        | true => rfl
        | false => exact absurd (hd rfl) hde
    · exact Or.inl (g1 (by omega))

theorem SReach.inv {h : SerH} (hr : SReach h) : SInv h := by
  induction hr with
  | alloc sz large junk h h8 hb e =>
    obtain ⟨a1, a2⟩ := allocate_spec sz large junk hb
    by_cases hc : large = true ∨ sz.head + sz.content + 8 < 2 ^ 32
    · obtain ⟨S, b1, b2, b3⟩ := a2 hc
      rw [b1] at e; injection e with e; subst e
      exact ⟨⟨by show (8 + sz.head) % 8 = 0; omega, rfl, by show 8 + sz.head ≤ S.length; omega, Nat.zero_le _,
        by show S.length < _; omega, by show (List.replicate sz.head 0#8).length < _; simp; omega⟩, h8,
        by show (List.replicate sz.head 0#8).length = sz.head; simp, b3, le_refl _⟩
    · rw [a1 (by cases large <;> simp_all) (by omega)] at e; cases e
  | wr h h' w hr hw hb e ih =>
    rcases w.total h ih.toHInv hw hb with ⟨h1, _⟩ | ⟨_, h2, h3⟩
    · rw [h1] at e; cases e
    · exact ih.write hw hb h2 h3 e
  | ld h h' l v hr hl e ih =>
    rcases l.total h ih.toHInv hl with h1 | ⟨v', dh, dd, h1, h2, h3, h4, h5⟩
    · rw [h1] at e; cases e
    · rw [h1] at e; injection e with e; injection e with e1 e2; subst e2
      have d8 := ih.d8
      have hh8 := ih.h8
      have low := ih.low
      exact ⟨⟨by show (h.headDev + dd) % 8 = 0; omega, by show (h.headHost + dh) % 8 = 0; omega, h5, h4, ih.sbig, ih.hbig⟩,
        ih.hs8, ih.hl, ih.pre, by show 8 + h.headerSize ≤ h.headDev + dd; omega⟩
  | reload h h' large s1 s2 bytes hr e1 e2 ih =>
    have hst : 8 + h.headerSize ≤ h.storage.length := le_trans ih.low ih.dle
    have h8 := ih.hs8
    obtain ⟨b, f1, f2, f3, f4, f5⟩ := finalize_ofBuffer h true s1 s2 (Or.inl rfl) ih.pre ih.hl hst ih.sbig
    rw [f1] at e1; injection e1 with e1; subst e1
    have e2' : SerH.ofBuffer b true s2 = .ok h' := by
      unfold SerH.ofBuffer at e2 ⊢
      split at e2
      · cases e2
      · rw [if_neg (by simp)]; exact e2
    rw [f5] at e2'; injection e2' with e2'; subst e2'
    exact ⟨⟨by show (8 + h.headerSize) % 8 = 0; omega, rfl, by show 8 + h.headerSize ≤ b.length; omega, Nat.zero_le _,
      by show b.length < _; rw [f2]; exact ih.sbig, ih.hbig⟩, ih.hs8, ih.hl, f4, le_refl _⟩

/-- **C17, bounds and alignment.** In every history (allocations, writes, loads in any order, reloads), a legal operation never
makes an out of bounds or misaligned access, whatever the sizes asked: it succeeds or throws; `finalize` succeeds and the
reload succeeds (or throws only for the 2^32 limit). -/
theorem C17_never_out_of_bounds (h : SerH) (hr : SReach h) :
    (∀ w : SWr, w.Legal → w.bytes < 2 ^ 62 → w.run h ≠ .ub) ∧ (∀ l : SLd, l.Legal → l.run h ≠ .ub) ∧
    (∀ s1, ∃ bytes, h.finalize s1 = .ok bytes ∧ bytes.length = h.storage.length ∧
      ∀ large s2, SerH.ofBuffer bytes large s2 ≠ .ub) := by
  have hi := hr.inv
  refine ⟨?_, ?_, ?_⟩
  · intro w hw hb
    rcases w.total h hi.toHInv hw hb with ⟨h1, _⟩ | ⟨⟨h', h1⟩, _⟩ <;> rw [h1] <;> simp
  · intro l hl
    rcases l.total h hi.toHInv hl with h1 | ⟨v', dh, dd, h1, _⟩ <;> rw [h1] <;> simp
  · intro s1
    have hst : 8 + h.headerSize ≤ h.storage.length := le_trans hi.low hi.dle
    obtain ⟨b, f1, f2, f3, f4, f5⟩ := finalize_ofBuffer h true s1 [] (Or.inl rfl) hi.pre hi.hl hst hi.sbig
    refine ⟨b, f1, f2, ?_⟩
    intro large s2
    obtain ⟨b', f1', _, _, _, f5'⟩ := finalize_ofBuffer h true s1 s2 (Or.inl rfl) hi.pre hi.hl hst hi.sbig
    rw [f1] at f1'; injection f1' with f1'; subst f1'
    unfold SerH.ofBuffer at f5' ⊢
    rw [if_neg (by simp)] at f5'
    split
    · simp
    · rw [f5']; simp

/-- Bytes rounded up to a multiple of 8. -/
def roundUp8 (x : Nat) : Nat := (x + 7) / 8 * 8

/-- **C17, past the end.** In every history, a write or load of a value throws exactly when the header has less than the value
rounded up to 8 bytes left; a write or load of `len` elements throws exactly when the storage has less than the elements rounded
up to 8 bytes left (or the destination device buffer is too small). -/
theorem C17_past_end_throws (h : SerH) (hr : SReach h) :
    (∀ t v, t.Ok → v.length = t.sz → (h.writeVal t v = .throws ↔ h.header.length < h.headHost + roundUp8 t.sz)) ∧
    (∀ t, t.Ok → (h.loadVal t = .throws ↔ h.header.length < h.headHost + roundUp8 t.sz)) ∧
    (∀ t elems len sched, t.Ok → len ≤ elems.length → (∀ v ∈ elems, v.length = t.sz) → len * t.sz < 2 ^ 61 →
      (h.writeBuf t elems len sched = .throws ↔ h.storage.length < h.headDev + roundUp8 (len * t.sz))) ∧
    (∀ dev t dest len sched, t.Ok → len * t.sz < 2 ^ 61 → (dev = false → len ≤ dest.length) →
      (h.loadBuf dev t dest len sched = .throws ↔
        h.storage.length < h.headDev + roundUp8 (len * t.sz) ∨ dest.length < len)) := by
  have hi := hr.inv
  refine ⟨?_, ?_, ?_, ?_⟩
  · intro t v ht hv
    have he := alignRepr_eq t.sz (by have := ht.2.2.2.2; omega)
    obtain ⟨h1, h2⟩ := writeVal_spec h t v ht hv hi.h8 hi.hbig hi.hle
    rw [he] at h1 h2
    unfold roundUp8
    constructor
    · intro e
      by_contra hc
      obtain ⟨H, e', _⟩ := h2 (by omega)
      rw [e] at e'; cases e'
    · exact h1
  · intro t ht
    have he := alignRepr_eq t.sz (by have := ht.2.2.2.2; omega)
    obtain ⟨h1, h2⟩ := loadVal_spec h t ht hi.h8 hi.hbig hi.hle
    rw [he] at h1 h2
    unfold roundUp8
    constructor
    · intro e
      by_contra hc
      have e' := h2 (by omega)
      rw [e] at e'; cases e'
    · exact h1
  · intro t elems len sched ht hl hsz hlz
    have he := alignRepr_eq (len * t.sz) (by omega)
    obtain ⟨h1, h2⟩ := writeBuf_spec h t elems len sched ht hl hsz (by omega) hi.d8 hi.sbig hi.dle
    rw [he] at h1 h2
    unfold roundUp8
    constructor
    · intro e
      by_contra hc
      obtain ⟨H, e', _⟩ := h2 (by omega)
      rw [e] at e'; cases e'
    · exact h1
  · intro dev t dest len sched ht hlz hd
    have he := alignRepr_eq (len * t.sz) (by omega)
    obtain ⟨h1, h2, h3⟩ := loadBuf_spec h dev t dest len sched ht (by omega) hi.d8 hi.sbig hi.dle
    rw [he] at h1 h2 h3
    unfold roundUp8
    constructor
    · intro e
      by_contra hc
      push Not at hc
      obtain ⟨H, e', _⟩ := h3 (by omega) hc.2
      rw [e] at e'; cases e'
    · intro hc
      by_cases hD : h.headDev + (len * t.sz + 7) / 8 * 8 > h.storage.length
      · exact h1 hD
      · have hlt : dest.length < len := by rcases hc with hc | hc; · exact absurd hc hD
                                           · exact hc
        refine h2 (by omega) hlt ?_
        cases dev with
        | true => rfl
        | false => have := hd rfl; omega

/-- **C17, defect.** A truncated buffer (fewer than 8 bytes) is not detected: the constructor reads past its end. -/
theorem C17_truncated_buffer_defect (b : List Byte) (h : 0 < b.length) (h8 : b.length < 8) (sched : List Nat) :
    SerH.ofBuffer b false sched = .ub := by
  unfold SerH.ofBuffer extractPrehead
  rw [if_neg (by simp; omega), if_neg (by omega), if_neg (by omega)]
  rfl

/-! Concrete case: a u16, a string, a buffer of 3-component vectors, work items in odd orders. -/
def sEx : List SWr := [.val ⟨2, 1, 2⟩ [1#8, 2#8], .str [72#8, 105#8, 33#8] [2, 0, 1],
  .buf ⟨2, 3, 2⟩ [[1#8, 2#8, 3#8, 4#8, 5#8, 6#8], [7#8, 8#8, 9#8, 10#8, 11#8, 12#8]] 2 [1, 0, 1]]
def sExL : List SLd := [.val ⟨2, 1, 2⟩, .str [1], .buf true ⟨2, 3, 2⟩ [[], [], [9#8]] 2 [1]]

example : ∀ w ∈ sEx, w.Legal := by
  intro w hw
  simp only [sEx, List.mem_cons, List.not_mem_nil, or_false] at hw
  rcases hw with rfl | rfl | rfl
  · exact ⟨by unfold STy.Ok; decide, rfl⟩
  · exact (by decide : (3 : Nat) < 2 ^ 32)
  · exact ⟨by unfold STy.Ok; decide, by decide, by decide⟩
example : List.Forall₂ SMatch sEx sExL :=
  .cons rfl (.cons trivial (.cons ⟨rfl, rfl, by decide⟩ .nil))

example : ((SerH.allocate (declSum sEx) false (fun i => BitVec.ofNat 8 (i * 7))) >>= fun h => runW sEx h >>= fun h =>
    h.finalize [3, 1] >>= fun b => SerH.ofBuffer b false [1, 0] >>= fun h => runL sExL h >>= fun r => pure r.1) =
    .ok [[[1#8, 2#8]], [[72#8, 105#8, 33#8]],
      [[1#8, 2#8, 3#8, 4#8, 5#8, 6#8], [7#8, 8#8, 9#8, 10#8, 11#8, 12#8], [9#8]]] := by decide +kernel

end Shamrock
