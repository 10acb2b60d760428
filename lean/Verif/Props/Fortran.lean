import Verif.Model.Fortran
import Verif.Props.ByteStream
/-! C19: Fortran record IO round trip and corruption detection. -/
namespace Shamrock

/-! ### Specification -/

/-- A record as the user writes it: `write(args...)`, `write_fixed_string(s, len)`, `write_string_array(svec, strlen, cnt)`,
`write_val_array(vec, cnt)` with elements of `sz` bytes. -/
inductive FRec where
  | vals (objs : List (List Byte))
  | fstr (s : List Byte) (len : Nat)
  | sarr (svec : List (List Byte)) (strlen cnt : Nat)
  | varr (sz : Nat) (vec : List (List Byte)) (cnt : Nat)

/-- A record as the user asks for it when reading (for `vals`, the current contents of the arguments). -/
inductive FReq where
  | vals (olds : List (List Byte))
  | fstr (old : List Byte) (len : Nat)
  | sarr (strlen cnt : Nat)
  | varr (sz cnt : Nat)

/-- Write a record. -/
def FRec.run : FRec → Strm → Res Strm
  | .vals objs, st => .ok (fWrite objs st)
  | .fstr s len, st => fWriteFixedString s len st
  | .sarr svec strlen cnt, st => fWriteStringArray svec strlen cnt st
  | .varr sz vec cnt, st => fWriteValArray sz vec cnt st

/-- Read a record; a string is returned as a one element list. -/
def FReq.run : FReq → Strm → Res (List (List Byte) × Strm)
  | .vals olds, st => fRead olds st
  | .fstr old len, st => do
    let (s, st) ← fReadFixedString old len st
    pure ([s], st)
  | .sarr strlen cnt, st => fReadStringArray strlen cnt st
  | .varr sz cnt, st => fReadValArray sz cnt st

/-- The request asks for the same kind and sizes as the record. -/
def FMatch : FRec → FReq → Prop
  | .vals objs, .vals olds => olds.map List.length = objs.map List.length
  | .fstr _ len, .fstr _ len' => len' = len
  | .sarr _ strlen cnt, .sarr strlen' cnt' => strlen' = strlen ∧ cnt' = cnt
  | .varr sz _ cnt, .varr sz' cnt' => sz' = sz ∧ cnt' = cnt
  | _, _ => False

/-- What the user expects to read back: the values; strings cut to the fixed length; the first `cnt` elements. -/
def FRec.value : FRec → List (List Byte)
  | .vals objs => objs
  | .fstr s len => [s.take len]
  | .sarr svec strlen cnt => (svec.take cnt).map (List.take strlen)
  | .varr _ vec cnt => vec.take cnt

/-- Legal use: the data exists (strings at least as long as the fixed length, arrays of at least `cnt` elements) and the record
is shorter than 2^31 bytes, the limit of the format. -/
def FRec.Legal : FRec → Prop
  | .vals objs => sizesSum objs < 2 ^ 31
  | .fstr s len => len ≤ s.length ∧ len < 2 ^ 31
  | .sarr svec strlen cnt => cnt ≤ svec.length ∧ (∀ s ∈ svec, strlen ≤ s.length) ∧ strlen * cnt < 2 ^ 31
  | .varr sz vec cnt => cnt ≤ vec.length ∧ (∀ s ∈ vec, s.length = sz) ∧ sz * cnt < 2 ^ 31

/-- Number of bytes between the two markers that a request expects. -/
def FReq.count : FReq → Nat
  | .vals olds => sizesSum olds
  | .fstr _ len => len
  | .sarr strlen cnt => strlen * cnt
  | .varr sz cnt => sz * cnt

/-! ### Proofs -/

/-- The objects a request reads into. -/
def FReq.olds : FReq → List (List Byte)
  | .vals olds => olds
  | .fstr old len => [old.take len ++ List.replicate (len - old.length) 0#8]
  | .sarr strlen cnt => List.replicate cnt (List.replicate strlen 0#8)
  | .varr sz cnt => List.replicate cnt (List.replicate sz 0#8)

theorem sizesSum_cons (o : List Byte) (r : List (List Byte)) : sizesSum (o :: r) = o.length + sizesSum r := by
  simp [sizesSum]

theorem sizesSum_replicate (n k : Nat) (b : Byte) : sizesSum (List.replicate k (List.replicate n b)) = n * k := by
  simp [sizesSum, Nat.mul_comm]

theorem sizesSum_flatten (l : List (List Byte)) : l.flatten.length = sizesSum l := by
  simp [sizesSum, List.length_flatten]

theorem FReq.olds_sum (q : FReq) : sizesSum q.olds = q.count := by
  cases q with
  | vals olds => rfl
  | fstr old len => simp only [FReq.olds, FReq.count, sizesSum]; simp; omega
  | sarr strlen cnt => exact sizesSum_replicate _ _ _
  | varr sz cnt => exact sizesSum_replicate _ _ _

theorem sext64_small (v : Nat) (h : v < 2 ^ 31) : sext64 v = v := if_pos h

theorem sext64_eq (v n : Nat) (hv : v < 2 ^ 32) (hn : n < 2 ^ 31) : sext64 v = n ↔ v = n := by
  unfold sext64
  split <;> omega

/-- All four reads have the same shape: marker, compare, objects, marker. -/
def fGen (olds : List (List Byte)) (count : Nat) (st : Strm) : Res (List (List Byte) × Strm) := do
  let (check, st) ← fReadMarker st
  if check ≠ count then .throws
  else do
    let (vals, st) := fReadObjs olds st
    let st ← fCheckMarker st check
    pure (vals, st)

theorem leVal_lt4 (b : List Byte) (h : b.length ≤ 4) : leVal b < 2 ^ 32 := by
  have := leVal_lt b
  have h2 : 256 ^ b.length ≤ 256 ^ 4 := Nat.pow_le_pow_right (by norm_num) h
  norm_num at h2 ⊢
  omega

theorem streamReadLocal_len (st st' : Strm) (n : Nat) (b : List Byte) (h : streamReadLocal st n = .ok (b, st')) :
    b.length = n := by
  unfold streamReadLocal at h
  have hlen : (st.read n).1.length ≤ n := by
    unfold Strm.read
    split
    · simp
    · simp only [List.length_take]; omega
  generalize st.read n = q at *
  obtain ⟨g, s⟩ := q
  simp only at h hlen
  split at h
  · cases h
  · injection h with h; injection h with h1 h2; subst h1; omega

theorem fReadMarker_lt (st st' : Strm) (m : Nat) (h : fReadMarker st = .ok (m, st')) : m < 2 ^ 32 := by
  unfold fReadMarker at h
  cases h1 : streamReadLocal st 4 with
  | ok q =>
    rw [h1] at h
    simp only [Res.ok_bind, Res.pure_eq, Res.ok.injEq, Prod.mk.injEq] at h
    rw [← h.1]
    exact leVal_lt4 _ (le_of_eq (streamReadLocal_len st q.2 4 q.1 h1))
  | throws => rw [h1] at h; cases h
  | ub => rw [h1] at h; cases h

theorem fGen_sext (olds : List (List Byte)) (count : Nat) (hc : count < 2 ^ 31) (st : Strm) :
    (do
      let (check, st) ← fReadMarker st
      if sext64 check ≠ count then Res.throws
      else do
        let (vals, st) := fReadObjs olds st
        let st ← fCheckMarker st check
        pure (vals, st)) = fGen olds count st := by
  unfold fGen
  cases h1 : fReadMarker st with
  | ok q =>
    simp only [Res.ok_bind]
    have := fReadMarker_lt st q.2 q.1 h1
    by_cases he : q.1 = count
    · rw [if_neg (by simp [(sext64_eq q.1 count this hc).2 he]), if_neg (by simp [he])]
    · rw [if_pos (by simp [(sext64_eq q.1 count this hc)]; exact he), if_pos he]
  | throws => rfl
  | ub => rfl

theorem FReq.run_gen (q : FReq) (hc : q.count < 2 ^ 31) (st : Strm) : q.run st = fGen q.olds q.count st := by
  cases q with
  | vals olds => exact fGen_sext olds _ hc st
  | fstr old len =>
    simp only [FReq.count] at hc
    simp only [FReq.run, fReadFixedString, fGen, FReq.olds, FReq.count, resizeBytes]
    rw [if_pos (by omega)]
    simp only [Res.ok_bind]
    cases h1 : fReadMarker st with
    | ok q =>
      simp only [Res.ok_bind]
      obtain ⟨c, st2⟩ := q
      by_cases he : c = len
      · subst he
        simp only [fReadObjs]
        show ((if c ≠ c then _ else _) >>= _) = (if c ≠ c then _ else _)
        rw [if_neg (by simp), if_neg (by simp)]
        cases fCheckMarker _ c <;> rfl
      · show ((if c ≠ len then _ else _) >>= _) = (if c ≠ len then _ else _)
        rw [if_pos he, if_pos he]; rfl
    | throws => rfl
    | ub => rfl
  | sarr strlen cnt =>
    have := fGen_sext (List.replicate cnt (List.replicate strlen 0#8)) (strlen * cnt) hc st
    simp only [FReq.count] at hc
    simp only [FReq.run, fReadStringArray]
    rw [Nat.mod_eq_of_lt (by omega)]
    exact this
  | varr sz cnt =>
    have := fGen_sext (List.replicate cnt (List.replicate sz 0#8)) (sz * cnt) hc st
    simp only [FReq.count] at hc
    simp only [FReq.run, fReadValArray]
    rw [Nat.mod_eq_of_lt (by omega)]
    exact this

theorem fReadObjs_mid (objs : List (List Byte)) : ∀ (olds : List (List Byte)) (pre post : List Byte) (pp : Nat),
    olds.map List.length = objs.map List.length →
    fReadObjs olds ⟨pre ++ (objs.flatten ++ post), pre.length, pp, false⟩ =
      (objs, ⟨pre ++ (objs.flatten ++ post), (pre ++ objs.flatten).length, pp, false⟩) := by
  induction objs with
  | nil =>
    intro olds pre post pp h
    have : olds = [] := by simpa using h
    subst this
    simp [fReadObjs]
  | cons o r ih =>
    intro olds pre post pp h
    cases olds with
    | nil => simp at h
    | cons o' r' =>
      simp only [List.map_cons, List.cons.injEq] at h
      simp only [fReadObjs, List.flatten_cons, List.append_assoc]
      rw [streamRead_mid pre o _ o' pp h.1]
      have e : pre ++ (o ++ (r.flatten ++ post)) = (pre ++ o) ++ (r.flatten ++ post) := by simp
      simp only
      rw [e, ih r' (pre ++ o) post pp h.2]
      simp

theorem fReadMarker_mid (pre b post : List Byte) (pp : Nat) (h : b.length = 4) :
    fReadMarker ⟨pre ++ (b ++ post), pre.length, pp, false⟩ =
      .ok (leVal b, ⟨pre ++ (b ++ post), (pre ++ b).length, pp, false⟩) := by
  unfold fReadMarker
  rw [streamReadLocal_mid pre b post pp 4 h]
  rfl

theorem fCheckMarker_mid (pre b post : List Byte) (pp m : Nat) (h : b.length = 4) :
    fCheckMarker ⟨pre ++ (b ++ post), pre.length, pp, false⟩ m =
      if leVal b ≠ m then .throws else .ok ⟨pre ++ (b ++ post), (pre ++ b).length, pp, false⟩ := by
  unfold fCheckMarker
  rw [streamRead_mid pre b post _ pp (by rw [leBytes_length, h])]

/-- A well formed record: what is read. -/
theorem fGen_mid (objs olds : List (List Byte)) (hl : olds.map List.length = objs.map List.length) (pre b t post : List Byte)
    (pp count : Nat) (hb : b.length = 4) (ht : t.length = 4) :
    fGen olds count ⟨pre ++ (b ++ (objs.flatten ++ (t ++ post))), pre.length, pp, false⟩ =
      if leVal b ≠ count then .throws else if leVal t ≠ leVal b then .throws else
        .ok (objs, ⟨pre ++ (b ++ (objs.flatten ++ (t ++ post))), (pre ++ (b ++ (objs.flatten ++ t))).length, pp, false⟩) := by
  unfold fGen
  rw [fReadMarker_mid pre b _ pp hb]
  simp only [Res.ok_bind]
  split
  · rfl
  · have e : pre ++ (b ++ (objs.flatten ++ (t ++ post))) = (pre ++ b) ++ (objs.flatten ++ (t ++ post)) := by simp
    rw [e, fReadObjs_mid objs olds (pre ++ b) _ pp hl]
    simp only
    have e2 : (pre ++ b) ++ (objs.flatten ++ (t ++ post)) = ((pre ++ b) ++ objs.flatten) ++ (t ++ post) := by simp
    rw [e2, fCheckMarker_mid _ t post pp _ ht]
    split
    · rfl
    · simp

/-- Bytes of a legal record. -/
def FRec.enc (r : FRec) : List Byte :=
  leBytes 4 (sizesSum r.value) ++ (r.value.flatten ++ leBytes 4 (sizesSum r.value))

theorem fWriteObjs_app (objs : List (List Byte)) : ∀ (st : Strm), st.bad = false → st.ppos = st.buf.length →
    fWriteObjs objs st = st.app objs.flatten := by
  induction objs with
  | nil => intro st hb hp; simp [fWriteObjs, Strm.app, ← hp]
  | cons o r ih =>
    intro st hb hp
    show fWriteObjs r (st.write o) = _
    rw [Strm.write_app st o hb hp, ih (st.app _) hb rfl, Strm.app_app, List.flatten_cons]

theorem fWriteStrings_app (k : Nat) : ∀ (svec : List (List Byte)) (strlen : Nat) (st : Strm), k ≤ svec.length →
    (∀ s ∈ svec, strlen ≤ s.length) → st.bad = false → st.ppos = st.buf.length →
    fWriteStrings svec strlen k st = .ok (st.app ((svec.take k).map (List.take strlen)).flatten) := by
  induction k with
  | zero => intro svec strlen st _ _ hb hp; cases svec <;> simp [fWriteStrings, Strm.app, ← hp]
  | succ k ih =>
    intro svec strlen st hk hs hb hp
    cases svec with
    | nil => simp at hk
    | cons s r =>
      have h1 := hs s List.mem_cons_self
      simp only [fWriteStrings, stringData]
      rw [if_pos (by omega)]
      simp only [Res.ok_bind]
      rw [List.take_append_of_le_length h1, Strm.write_app st _ hb hp,
        ih r strlen (st.app _) (by simp at hk; omega) (fun x hx => hs x (List.mem_cons_of_mem _ hx)) hb rfl, Strm.app_app]
      simp

theorem take_sum (svec : List (List Byte)) (strlen cnt : Nat) (h1 : cnt ≤ svec.length) (h2 : ∀ s ∈ svec, strlen ≤ s.length) :
    ((svec.take cnt).map (List.take strlen)).map List.length = List.replicate cnt strlen := by
  rw [List.map_map, List.eq_replicate_iff]
  refine ⟨by simp; omega, ?_⟩
  intro b hb
  obtain ⟨s, hs, rfl⟩ := List.mem_map.1 hb
  simp only [Function.comp, List.length_take]
  have := h2 s (List.mem_of_mem_take hs)
  omega

theorem take_sum' (vec : List (List Byte)) (sz cnt : Nat) (h1 : cnt ≤ vec.length) (h2 : ∀ s ∈ vec, s.length = sz) :
    (vec.take cnt).map List.length = List.replicate cnt sz := by
  rw [List.eq_replicate_iff]
  refine ⟨by simp; omega, ?_⟩
  intro b hb
  obtain ⟨s, hs, rfl⟩ := List.mem_map.1 hb
  exact h2 s (List.mem_of_mem_take hs)

theorem FRec.value_sum (r : FRec) (hl : r.Legal) :
    sizesSum r.value < 2 ^ 31 ∧ ∀ q, FMatch r q → q.count = sizesSum r.value ∧ q.olds.map List.length = r.value.map List.length := by
  cases r with
  | vals objs =>
    refine ⟨hl, ?_⟩
    intro q hq
    cases q <;> simp only [FMatch] at hq
    exact ⟨by simp only [FReq.count, sizesSum, FRec.value]; rw [hq], hq⟩
  | fstr s len =>
    simp only [FRec.Legal] at hl
    have e : sizesSum (FRec.value (.fstr s len)) = len := by
      simp only [FRec.value, sizesSum]; simp; omega
    refine ⟨by rw [e]; exact hl.2, ?_⟩
    intro q hq
    cases q <;> simp only [FMatch] at hq
    subst hq
    refine ⟨by rw [e]; rfl, ?_⟩
    simp only [FReq.olds, FRec.value]; simp; omega
  | sarr svec strlen cnt =>
    simp only [FRec.Legal] at hl
    have e : sizesSum (FRec.value (.sarr svec strlen cnt)) = strlen * cnt := by
      simp only [FRec.value, sizesSum]; rw [take_sum _ _ _ hl.1 hl.2.1]; simp [Nat.mul_comm]
    refine ⟨by rw [e]; exact hl.2.2, ?_⟩
    intro q hq
    cases q <;> simp only [FMatch] at hq
    obtain ⟨rfl, rfl⟩ := hq
    exact ⟨by rw [e]; rfl, by simp only [FReq.olds, FRec.value]; rw [take_sum _ _ _ hl.1 hl.2.1]; simp⟩
  | varr sz vec cnt =>
    simp only [FRec.Legal] at hl
    have e : sizesSum (FRec.value (.varr sz vec cnt)) = sz * cnt := by
      simp only [FRec.value, sizesSum]; rw [take_sum' _ _ _ hl.1 hl.2.1]; simp [Nat.mul_comm]
    refine ⟨by rw [e]; exact hl.2.2, ?_⟩
    intro q hq
    cases q <;> simp only [FMatch] at hq
    obtain ⟨rfl, rfl⟩ := hq
    exact ⟨by rw [e]; rfl, by simp only [FReq.olds, FRec.value]; rw [take_sum' _ _ _ hl.1 hl.2.1]; simp⟩

theorem FRec.run_app (r : FRec) (hl : r.Legal) (st : Strm) (hb : st.bad = false) (hp : st.ppos = st.buf.length) :
    r.run st = .ok (st.app r.enc) := by
  cases r with
  | vals objs =>
    simp only [FRec.run, fWrite, streamWrite]
    rw [Strm.write_app st _ hb hp, fWriteObjs_app _ (st.app _) hb rfl, Strm.app_app, Strm.write_app (st.app _) _ hb rfl,
      Strm.app_app, List.append_assoc]
    rfl
  | fstr s len =>
    simp only [FRec.Legal] at hl
    have e : sizesSum (FRec.value (.fstr s len)) = len := by
      simp only [FRec.value, sizesSum]; simp; omega
    simp only [FRec.run, fWriteFixedString, streamWrite, stringData]
    rw [if_pos (by omega)]
    simp only [Res.ok_bind, Res.pure_eq]
    rw [List.take_append_of_le_length hl.1, Strm.write_app st _ hb hp, Strm.write_app (st.app _) _ hb rfl, Strm.app_app,
      Strm.write_app (st.app _) _ hb rfl, Strm.app_app, List.append_assoc]
    simp only [FRec.enc, e]
    simp [FRec.value]
  | sarr svec strlen cnt =>
    simp only [FRec.Legal] at hl
    have e : sizesSum (FRec.value (.sarr svec strlen cnt)) = strlen * cnt := by
      simp only [FRec.value, sizesSum]; rw [take_sum _ _ _ hl.1 hl.2.1]; simp [Nat.mul_comm]
    simp only [FRec.run, fWriteStringArray, streamWrite]
    rw [Strm.write_app st _ hb hp, fWriteStrings_app _ _ _ (st.app _) hl.1 hl.2.1 hb rfl]
    simp only [Res.ok_bind, Res.pure_eq]
    rw [Strm.app_app, Strm.write_app (st.app _) _ hb rfl, Strm.app_app, List.append_assoc]
    simp only [FRec.enc, e]
    simp [FRec.value]
  | varr sz vec cnt =>
    simp only [FRec.Legal] at hl
    have e : sizesSum (FRec.value (.varr sz vec cnt)) = sz * cnt := by
      simp only [FRec.value, sizesSum]; rw [take_sum' _ _ _ hl.1 hl.2.1]; simp [Nat.mul_comm]
    simp only [FRec.run, fWriteValArray, streamWrite]
    rw [if_neg (by omega), Strm.write_app st _ hb hp, fWriteObjs_app _ (st.app _) hb rfl, Strm.app_app,
      Strm.write_app (st.app _) _ hb rfl, Strm.app_app, List.append_assoc]
    simp only [FRec.enc, e]
    simp [FRec.value]

theorem FReq.run_mid (r : FRec) (q : FReq) (hl : r.Legal) (hm : FMatch r q) (pre post : List Byte) (pp : Nat) :
    q.run ⟨pre ++ (r.enc ++ post), pre.length, pp, false⟩ =
      .ok (r.value, ⟨pre ++ (r.enc ++ post), (pre ++ r.enc).length, pp, false⟩) := by
  obtain ⟨h1, h2⟩ := r.value_sum hl
  obtain ⟨h3, h4⟩ := h2 q hm
  rw [FReq.run_gen q (by omega)]
  have := fGen_mid r.value q.olds h4 pre (leBytes 4 (sizesSum r.value)) (leBytes 4 (sizesSum r.value)) post pp q.count
    (leBytes_length _ _) (leBytes_length _ _)
  rw [leVal_leBytes 4 _ (by norm_num; omega), if_neg (by simp [h3]), if_neg (by simp)] at this
  simp only [FRec.enc, List.append_assoc]
  exact this

/-! ### Statements -/

/-- Writing records one after the other. -/
def fWriteAll : List FRec → Strm → Res Strm
  | [], st => .ok st
  | r :: rs, st => do
    let st ← r.run st
    fWriteAll rs st

/-- Reading records one after the other. -/
def fReadAll : List FReq → Strm → Res (List (List (List Byte)) × Strm)
  | [], st => .ok ([], st)
  | q :: qs, st => do
    let (v, st) ← q.run st
    let (vs, st) ← fReadAll qs st
    pure (v :: vs, st)

theorem fWriteAll_app (rs : List FRec) : ∀ (st : Strm), (∀ r ∈ rs, r.Legal) → st.bad = false → st.ppos = st.buf.length →
    fWriteAll rs st = .ok (st.app (rs.flatMap FRec.enc)) := by
  induction rs with
  | nil => intro st _ hb hp; simp [fWriteAll, Strm.app, ← hp]
  | cons r rs ih =>
    intro st hl hb hp
    simp only [fWriteAll]
    rw [r.run_app (hl r List.mem_cons_self) st hb hp]
    simp only [Res.ok_bind]
    rw [ih (st.app _) (fun x hx => hl x (List.mem_cons_of_mem _ hx)) hb rfl, Strm.app_app, List.flatMap_cons]

theorem fReadAll_mid (rs : List FRec) : ∀ (qs : List FReq) (pre post : List Byte) (pp : Nat), (∀ r ∈ rs, r.Legal) →
    List.Forall₂ FMatch rs qs →
    fReadAll qs ⟨pre ++ (rs.flatMap FRec.enc ++ post), pre.length, pp, false⟩ =
      .ok (rs.map FRec.value, ⟨pre ++ (rs.flatMap FRec.enc ++ post), (pre ++ rs.flatMap FRec.enc).length, pp, false⟩) := by
  induction rs with
  | nil => intro qs pre post pp _ hm; cases hm; simp [fReadAll]
  | cons r rs ih =>
    intro qs pre post pp hl hm
    cases hm with
    | cons h1 h2 =>
      rename_i q qs
      simp only [fReadAll, List.flatMap_cons, List.append_assoc]
      rw [FReq.run_mid r q (hl r List.mem_cons_self) h1 pre _ pp]
      simp only [Res.ok_bind]
      have e : pre ++ (r.enc ++ (rs.flatMap FRec.enc ++ post)) = (pre ++ r.enc) ++ (rs.flatMap FRec.enc ++ post) := by simp
      rw [e, ih qs (pre ++ r.enc) post pp (fun x hx => hl x (List.mem_cons_of_mem _ hx)) h2]
      simp

/-- **C19, round trip.** Any sequence of legal records written to a new file succeeds; reopening the bytes and reading any first
part of the sequence with requests of the same kinds and sizes returns exactly the written values, in order, without an
exception; `finished_read` becomes true exactly when all records have been read. -/
theorem C19_roundtrip (rs1 rs2 : List FRec) (hl : ∀ r ∈ rs1 ++ rs2, r.Legal) (qs : List FReq)
    (hm : List.Forall₂ FMatch rs1 qs) :
    ∃ st, fWriteAll (rs1 ++ rs2) ⟨[], 0, 0, false⟩ = .ok st ∧
      ∃ st', fReadAll qs (fOpen st.buf).1 = .ok (rs1.map FRec.value, st') ∧
        (fFinishedRead st' (fOpen st.buf).2 = true ↔ rs2 = []) := by
  refine ⟨_, fWriteAll_app _ _ hl rfl rfl, ?_⟩
  have h := fReadAll_mid rs1 qs [] (rs2.flatMap FRec.enc) (List.flatMap FRec.enc (rs1 ++ rs2)).length
    (fun r hr => hl r (List.mem_append_left _ hr)) hm
  refine ⟨⟨(rs1 ++ rs2).flatMap FRec.enc, (rs1.flatMap FRec.enc).length, ((rs1 ++ rs2).flatMap FRec.enc).length, false⟩, ?_, ?_⟩
  · simp only [Strm.app, fOpen, List.nil_append]
    simp only [List.nil_append, List.flatMap_append, List.length_nil] at h ⊢
    exact h
  · simp only [fFinishedRead, fOpen, Strm.app, List.nil_append]
    simp only [Bool.false_eq_true, if_false, decide_eq_true_eq, List.flatMap_append, List.length_append]
    constructor
    · intro e
      cases rs2 with
      | nil => rfl
      | cons r rs =>
        exfalso
        simp only [List.flatMap_cons, List.length_append, FRec.enc, leBytes_length] at e
        omega
    · rintro rfl; simp

/-- **C19, wrong leading count.** A record whose leading 4 bytes are not the byte count the reader expects makes the read throw,
whatever follows. -/
theorem C19_bad_leading_throws (q : FReq) (hc : q.count < 2 ^ 31) (pre b post : List Byte) (pp : Nat) (hb : b.length = 4)
    (hne : b ≠ leBytes 4 q.count) : q.run ⟨pre ++ (b ++ post), pre.length, pp, false⟩ = .throws := by
  rw [FReq.run_gen q hc]
  unfold fGen
  rw [fReadMarker_mid pre b post pp hb]
  simp only [Res.ok_bind]
  rw [if_pos]
  intro e
  apply hne
  rw [← e, ← hb, leBytes_leVal]

theorem split_chunks (olds : List (List Byte)) : ∀ (d : List Byte), d.length = sizesSum olds →
    ∃ objs : List (List Byte), olds.map List.length = objs.map List.length ∧ objs.flatten = d := by
  induction olds with
  | nil => intro d h; simp [sizesSum] at h; exact ⟨[], rfl, by simp [h]⟩
  | cons o r ih =>
    intro d h
    rw [sizesSum_cons] at h
    obtain ⟨objs, h1, h2⟩ := ih (d.drop o.length) (by simp; omega)
    refine ⟨d.take o.length :: objs, by simp [h1]; omega, by simp [h2]⟩

/-- **C19, wrong trailing count.** A record with the right leading count and payload length whose trailing 4 bytes differ from the
count makes the read throw. -/
theorem C19_bad_trailing_throws (q : FReq) (hc : q.count < 2 ^ 31) (pre d t post : List Byte) (pp : Nat)
    (hd : d.length = q.count) (ht : t.length = 4) (hne : t ≠ leBytes 4 q.count) :
    q.run ⟨pre ++ (leBytes 4 q.count ++ (d ++ (t ++ post))), pre.length, pp, false⟩ = .throws := by
  rw [FReq.run_gen q hc]
  obtain ⟨objs, h1, h2⟩ := split_chunks q.olds d (by rw [q.olds_sum, hd])
  subst h2
  rw [fGen_mid objs q.olds h1 pre _ t post pp _ (leBytes_length _ _) ht, leVal_leBytes 4 _ (by norm_num; omega),
    if_neg (by simp), if_pos]
  intro e
  apply hne
  rw [← e, ← ht, leBytes_leVal]

theorem fReadObjs_bad (olds : List (List Byte)) : ∀ st : Strm, st.bad = true → (fReadObjs olds st).2 = st := by
  induction olds with
  | nil => intro st _; rfl
  | cons o r ih =>
    intro st hb
    have e : (streamRead st o).2 = st := by simp [streamRead, Strm.read, hb]
    simp only [fReadObjs]
    rw [e]
    exact ih st hb

theorem fReadObjs_short (olds : List (List Byte)) : ∀ (pre d : List Byte) (pp : Nat), d.length < sizesSum olds →
    (fReadObjs olds ⟨pre ++ d, pre.length, pp, false⟩).2.bad = true := by
  induction olds with
  | nil => intro pre d pp h; simp [sizesSum] at h
  | cons o r ih =>
    intro pre d pp h
    rw [sizesSum_cons] at h
    simp only [fReadObjs]
    by_cases ho : d.length < o.length
    · have e : (streamRead ⟨pre ++ d, pre.length, pp, false⟩ o).2.bad = true := by
        simp [streamRead, Strm.read]; omega
      have := fReadObjs_bad r _ e
      rw [this]; exact e
    · have hdd : d.take o.length ++ d.drop o.length = d := List.take_append_drop _ _
      have e := streamRead_mid pre (d.take o.length) (d.drop o.length) o pp (by simp; omega)
      rw [hdd] at e
      rw [e]
      simp only
      have e3 : pre ++ d = (pre ++ d.take o.length) ++ d.drop o.length := by rw [List.append_assoc, hdd]
      rw [e3]
      exact ih (pre ++ d.take o.length) (d.drop o.length) pp (by simp; omega)

/-- **C19, truncated payload.** If the file ends inside the payload of a (non empty) record, reading that record throws. -/
theorem C19_truncated_payload_throws (q : FReq) (hc : q.count < 2 ^ 31) (pre d : List Byte) (pp : Nat)
    (hd : d.length < q.count) :
    q.run ⟨pre ++ (leBytes 4 q.count ++ d), pre.length, pp, false⟩ = .throws := by
  rw [FReq.run_gen q hc]
  unfold fGen
  rw [fReadMarker_mid pre _ d pp (leBytes_length _ _)]
  simp only [Res.ok_bind]
  rw [leVal_leBytes 4 _ (by norm_num; omega), if_neg (by simp)]
  have e3 : pre ++ (leBytes 4 q.count ++ d) = (pre ++ leBytes 4 q.count) ++ d := by simp
  rw [e3]
  have hb := fReadObjs_short q.olds (pre ++ leBytes 4 q.count) d pp (by rw [q.olds_sum]; exact hd)
  generalize fReadObjs q.olds _ = w at *
  obtain ⟨w, st⟩ := w
  simp only at hb ⊢
  have e : fCheckMarker st q.count = .throws := by
    have h0 : leVal (leBytes 4 0) ≠ q.count := by rw [leVal_leBytes 4 0 (by norm_num)]; omega
    simp only [fCheckMarker, streamRead, Strm.read, hb, if_true, List.length_nil, List.drop_zero, List.nil_append]
    rw [if_pos h0]
  rw [e]; rfl

/-- **C19, defect.** Reading past the last record is undefined behaviour (an uninitialised marker is compared), it does not
throw. -/
theorem C19_read_at_eof_defect (q : FReq) (hc : q.count < 2 ^ 31) (pre d : List Byte) (pp : Nat) (hd : d.length < 4) :
    q.run ⟨pre ++ d, pre.length, pp, false⟩ = .ub := by
  rw [FReq.run_gen q hc]
  unfold fGen fReadMarker streamReadLocal Strm.read
  simp
  rw [if_pos (by omega)]
  rfl

/-- **C19, defect.** A file cut in the middle of a trailing marker is not detected: the missing bytes are taken as zero. -/
theorem C19_truncated_marker_defect :
    fRead [[0#8, 0#8, 0#8, 0#8]] ⟨leBytes 4 4 ++ [1#8, 2#8, 3#8, 4#8] ++ [4#8], 0, 9, false⟩ =
      .ok ([[1#8, 2#8, 3#8, 4#8]], ⟨leBytes 4 4 ++ [1#8, 2#8, 3#8, 4#8] ++ [4#8], 9, 9, true⟩) := by decide +kernel

/-- **C19, defect.** A value array of 2^31 bytes or more is written without complaint (its byte count wraps) but reading it back
with the same sizes throws. -/
theorem C19_large_array_defect (sz cnt : Nat) (vec : List (List Byte)) (hv : ∀ s ∈ vec, s.length = sz) (hc : cnt ≤ vec.length)
    (hlarge : 2 ^ 31 ≤ sz * cnt) (hmax : sz * cnt < 2 ^ 63) :
    ∃ st, fWriteValArray sz vec cnt ⟨[], 0, 0, false⟩ = .ok st ∧ fReadValArray sz cnt (fOpen st.buf).1 = .throws := by
  refine ⟨_, if_neg (by omega), ?_⟩
  simp only [fOpen, streamWrite]
  rw [Strm.write_app (Strm.mk [] 0 0 false) _ rfl rfl, fWriteObjs_app _ (Strm.app _ _) rfl rfl, Strm.app_app,
    Strm.write_app (Strm.app _ _) _ rfl rfl, Strm.app_app]
  simp only [Strm.app, List.nil_append]
  unfold fReadValArray
  have := fReadMarker_mid [] (leBytes 4 (sz * cnt)) ((vec.take cnt).flatten ++ leBytes 4 (sz * cnt))
    ((leBytes 4 (sz * cnt) ++ (vec.take cnt).flatten) ++ leBytes 4 (sz * cnt)).length (leBytes_length _ _)
  simp only [List.nil_append, List.length_nil] at this
  rw [List.append_assoc] at this ⊢
  rw [this]
  simp only [Res.ok_bind]
  rw [if_pos]
  have hlt := leVal_lt4 (leBytes 4 (sz * cnt)) (le_of_eq (leBytes_length _ _))
  rw [Nat.mod_eq_of_lt (by omega : sz * cnt < 2 ^ 64)]
  intro e
  unfold sext64 at e
  split at e <;> omega

/-- A concrete file meeting the hypotheses of the round trip. -/
def fExample : List FRec :=
  [.vals [[1#8, 2#8], [3#8]], .fstr [65#8, 66#8, 67#8] 2, .sarr [[65#8, 66#8], [67#8, 68#8]] 2 2, .varr 1 [[5#8], [6#8], [7#8]] 2,
   .sarr [] 16 0]

example : ∀ r ∈ fExample, r.Legal := by
  intro r hr
  simp only [fExample, List.mem_cons, List.not_mem_nil, or_false] at hr
  rcases hr with rfl | rfl | rfl | rfl | rfl <;> simp [FRec.Legal, sizesSum]

example : (fWriteAll fExample ⟨[], 0, 0, false⟩ >>= fun st =>
    fReadAll [.vals [[0#8, 0#8], [0#8]], .fstr [9#8] 2, .sarr 2 2, .varr 1 2, .sarr 16 0] (fOpen st.buf).1 >>= fun r =>
      pure (r.1, fFinishedRead r.2 (fOpen st.buf).2)) =
    .ok ([[[1#8, 2#8], [3#8]], [[65#8, 66#8]], [[65#8, 66#8], [67#8, 68#8]], [[5#8], [6#8]], []], true) := by decide +kernel

end Shamrock
