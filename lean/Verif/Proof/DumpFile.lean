import Verif.Proof.DumpJson
import Verif.Props.ByteStream
import Verif.Props.Collective
/-! The contents of the file of a dump. -/
namespace Shamrock

theorem maxMsg_pos : 0 < maxMsg := Nat.two_pow_pos 30
attribute [local irreducible] maxMsg

/-- The write agrees with the text `T`. -/
def FWrite.Agrees (T : List Byte) (w : FWrite) : Prop := ∀ i < w.2.length, w.2[i]? = T[w.1 + i]?

theorem writes_agree (T : List Byte) : ∀ (ws : List FWrite) (f : FileC), (∀ w ∈ ws, FWrite.Agrees T w) →
    ∀ x, ((∃ w ∈ ws, w.1 ≤ x ∧ x < w.1 + w.2.length) → f.writes ws x = T[x]?) ∧ (f x = T[x]? → f.writes ws x = T[x]?) := by
  intro ws
  induction ws with
  | nil => intro f _ x; exact ⟨fun ⟨w, hw, _⟩ => absurd hw List.not_mem_nil, fun h => h⟩
  | cons w ws ih =>
    intro f h x
    obtain ⟨h1, h2⟩ := ih (f.write w) (fun v hv => h v (List.mem_cons_of_mem _ hv)) x
    have hw : (w.1 ≤ x ∧ x < w.1 + w.2.length) → f.write w x = T[x]? := by
      intro hx
      unfold FileC.write
      rw [if_pos hx, h w List.mem_cons_self (x - w.1) (by omega)]
      congr 1; omega
    refine ⟨fun ⟨v, hv, hx⟩ => ?_, fun hf => h2 ?_⟩
    · rcases List.mem_cons.1 hv with rfl | hv
      · exact h2 (hw hx)
      · exact h1 ⟨v, hv, hx⟩
    · by_cases hx : w.1 ≤ x ∧ x < w.1 + w.2.length
      · exact hw hx
      · unfold FileC.write
        rw [if_neg hx]; exact hf

/-- Writes that agree with `T` and cover it make the file `T`, in any order. -/
theorem file_eq (T : List Byte) (ws order : List FWrite) (hp : order.Perm ws) (h : ∀ w ∈ ws, FWrite.Agrees T w)
    (hc : ∀ x < T.length, ∃ w ∈ ws, w.1 ≤ x ∧ x < w.1 + w.2.length) : FileC.writes (fun _ => none) order = fun x => T[x]? := by
  funext x
  obtain ⟨h1, h2⟩ := writes_agree T order (fun _ => none) (fun w hw => h w (hp.mem_iff.1 hw)) x
  by_cases hx : x < T.length
  · obtain ⟨w, hw, hx⟩ := hc x hx
    exact h1 ⟨w, hp.mem_iff.2 hw, hx⟩
  · apply h2
    rw [List.getElem?_eq_none (by omega)]

/-- Reading a piece of the file. -/
theorem read_eq (T : List Byte) : ∀ (n off : Nat), off + n ≤ T.length → FileC.read (fun x => T[x]?) off n = .ok ((T.drop off).take n) := by
  intro n
  induction n with
  | zero => intro off _; rw [List.take_zero]; rfl
  | succ n ih =>
    intro off h
    rw [FileC.read]
    have ho : off < T.length := by omega
    rw [List.getElem?_eq_getElem ho]
    simp only
    rw [ih (off + 1) (by omega)]
    rw [List.drop_eq_getElem_cons ho, List.take_succ_cons]
    rfl

theorem agrees_append {T : List Byte} (A B C : List Byte) (hT : T = A ++ B ++ C) : FWrite.Agrees T (A.length, B) := by
  intro i hi
  have hi' : i < B.length := hi
  subst hT
  show B[i]? = (A ++ B ++ C)[A.length + i]?
  rw [List.append_assoc, List.getElem?_append_right (by omega), List.getElem?_append_left (by omega)]
  congr 1; omega

theorem msgChunks_mem {len o n : Nat} (h : (o, n) ∈ msgChunks len) : o + n ≤ len ∧ 0 < n ∧ ∃ k, o = k * maxMsg ∧ n = min maxMsg (len - o) := by
  unfold msgChunks at h
  obtain ⟨k, hk, e⟩ := List.mem_map.1 h
  rw [Prod.mk.injEq] at e
  obtain ⟨rfl, rfl⟩ := e
  have hk := List.mem_range.1 hk
  have hM := maxMsg_pos
  generalize maxMsg = M at *
  have h1 : (k + 1) * M ≤ len + M - 1 := (Nat.le_div_iff_mul_le hM).1 hk
  rw [Nat.add_mul, Nat.one_mul] at h1
  refine ⟨?_, ?_, k, rfl, rfl⟩ <;> omega

theorem msgChunks_cover {len x : Nat} (h : x < len) : ∃ o n, (o, n) ∈ msgChunks len ∧ o ≤ x ∧ x < o + n := by
  have hM := maxMsg_pos
  refine ⟨x / maxMsg * maxMsg, min maxMsg (len - x / maxMsg * maxMsg), ?_, ?_, ?_⟩
  · unfold msgChunks
    refine List.mem_map.2 ⟨x / maxMsg, List.mem_range.2 ?_, rfl⟩
    generalize maxMsg = M at *
    rw [Nat.lt_iff_add_one_le, Nat.le_div_iff_mul_le hM, Nat.add_mul, Nat.one_mul]
    have := Nat.div_mul_le_self x M
    omega
  · exact Nat.div_mul_le_self x maxMsg
  · generalize maxMsg = M at *
    have := Nat.div_mul_le_self x M
    have := Nat.lt_div_mul_add hM (a := x)
    omega

theorem writeAtLarge_agrees {T A B C : List Byte} (hT : T = A ++ B ++ C) : ∀ w ∈ writeAtLarge B A.length, FWrite.Agrees T w := by
  intro w hw
  obtain ⟨⟨o, n⟩, hc, rfl⟩ := List.mem_map.1 hw
  obtain ⟨h1, h2, -⟩ := msgChunks_mem hc
  have : T = (A ++ B.take o) ++ (B.drop o).take n ++ ((B.drop o).drop n ++ C) := by
    have e1 := List.take_append_drop o B
    have e2 := List.take_append_drop n (B.drop o)
    calc T = A ++ B ++ C := hT
      _ = A ++ (B.take o ++ ((B.drop o).take n ++ (B.drop o).drop n)) ++ C := by rw [e2, e1]
      _ = _ := by simp only [List.append_assoc]
  have := agrees_append _ _ _ this
  rw [List.length_append, List.length_take, Nat.min_eq_left (by omega)] at this
  exact this

theorem writeAtLarge_cover {B : List Byte} {head x : Nat} (h1 : head ≤ x) (h2 : x < head + B.length) : ∃ w ∈ writeAtLarge B head, w.1 ≤ x ∧ x < w.1 + w.2.length := by
  obtain ⟨o, n, h3, h4, h5⟩ := msgChunks_cover (len := B.length) (x := x - head) (by omega)
  have hm := (msgChunks_mem h3).1
  refine ⟨(head + o, (B.drop o).take n), List.mem_map.2 ⟨(o, n), h3, rfl⟩, ?_, ?_⟩
  · show head + o ≤ x; omega
  · show x < head + o + ((B.drop o).take n).length
    rw [List.length_take, List.length_drop]
    omega

theorem chunks_concat_aux (B : List Byte) (M : Nat) (hstep : ∀ k, k * M ≤ B.length → (B.drop (k * M)).take (min M (B.length - k * M)) = (B.drop (k * M)).take M) : ∀ k, k * M ≤ B.length + M - 1 → ((List.range k).map (fun k => (B.drop (k * M)).take (min M (B.length - k * M)))).flatten = B.take (k * M) := by
    intro k
    induction k with
    | zero => intro _; rw [Nat.zero_mul]; rfl
    | succ k ih =>
      intro h
      have e : (k + 1) * M = k * M + M := by rw [Nat.add_mul, Nat.one_mul]
      rw [e] at h
      have h2 := ih (by omega)
      rw [List.range_succ, List.map_append, List.flatten_append, h2, e, List.take_add, ← hstep k (by omega)]
      rw [List.map_singleton, List.flatten_singleton]

/-- The chunks put together. -/
theorem chunks_concat (B : List Byte) : ((msgChunks B.length).map fun c => (B.drop c.1).take c.2).flatten = B := by
  have hM := maxMsg_pos
  unfold msgChunks
  generalize maxMsg = M at *
  rw [List.map_map]
  have hstep : ∀ k, k * M ≤ B.length → (B.drop (k * M)).take (min M (B.length - k * M)) = (B.drop (k * M)).take M := by
    intro k _
    have : B.length - k * M = (B.drop (k * M)).length := by rw [List.length_drop]
    rw [this, List.take_eq_take_iff, Nat.min_assoc, Nat.min_self]
  have key := chunks_concat_aux B M hstep
  show ((List.range _).map (fun k => (B.drop (k * M)).take (min M (B.length - k * M)))).flatten = B
  rw [key _ ((Nat.le_div_iff_mul_le hM).1 (Nat.le_refl _))]
  apply List.take_of_length_le
  have h1 := Nat.lt_div_mul_add hM (a := B.length + M - 1)
  omega

theorem readAtLarge_eq {T A B C : List Byte} (hT : T = A ++ B ++ C) : readAtLarge (fun x => T[x]?) B.length A.length = .ok B := by
  have key : ∀ cs : List (Nat × Nat), (∀ c ∈ cs, c.1 + c.2 ≤ B.length) →
      cs.foldr (fun c acc => (FileC.read (fun x => T[x]?) (A.length + c.1) c.2).bind fun x => acc.bind fun r => .ok (x ++ r)) (.ok []) =
        .ok (cs.map fun c => (B.drop c.1).take c.2).flatten := by
    intro cs
    induction cs with
    | nil => intro _; rfl
    | cons c cs ih =>
      intro h
      rw [List.foldr_cons, ih fun d hd => h d (List.mem_cons_of_mem _ hd)]
      have hc := h c List.mem_cons_self
      have hl : T.length = A.length + B.length + C.length := by rw [hT, List.length_append, List.length_append]
      rw [read_eq T c.2 (A.length + c.1) (by omega)]
      simp only [Res.bind]
      have : (T.drop (A.length + c.1)).take c.2 = (B.drop c.1).take c.2 := by
        rw [hT, List.append_assoc, ← List.drop_drop, List.drop_left, List.drop_append_of_le_length (by omega), List.take_append_of_le_length (by rw [List.length_drop]; omega)]
      rw [this]
      rfl
  unfold readAtLarge
  rw [key _ fun c hc => (msgChunks_mem (o := c.1) (n := c.2) hc).1, chunks_concat]

theorem pow256 : (2 : Nat) ^ 64 = 256 ^ 8 := by decide

/-- The bytes of a header. -/
def headerBytes (s : List Byte) : List Byte := leBytes 8 s.length ++ s

theorem headerBytes_length (s : List Byte) : (headerBytes s).length = 8 + s.length := by
  unfold headerBytes
  rw [List.length_append, leBytes_length]

theorem headerWrites_agrees {T A C s : List Byte} (hT : T = A ++ headerBytes s ++ C) : ∀ w ∈ headerWrites A.length s, FWrite.Agrees T w := by
  intro w hw
  unfold headerWrites at hw
  rw [List.mem_cons, List.mem_singleton] at hw
  unfold headerBytes at hT
  rcases hw with rfl | rfl
  · exact agrees_append A (leBytes 8 s.length) (s ++ C) (by rw [hT]; simp only [List.append_assoc])
  · have := agrees_append (T := T) (A ++ leBytes 8 s.length) s C (by rw [hT]; simp only [List.append_assoc])
    rw [List.length_append, leBytes_length] at this
    exact this

theorem headerWrites_cover {head x : Nat} {s : List Byte} (h1 : head ≤ x) (h2 : x < head + (8 + s.length)) : ∃ w ∈ headerWrites head s, w.1 ≤ x ∧ x < w.1 + w.2.length := by
  by_cases hx : x < head + 8
  · exact ⟨(head, leBytes 8 s.length), List.mem_cons_self, h1, by rw [leBytes_length]; exact hx⟩
  · exact ⟨(head + 8, s), List.mem_cons_of_mem _ List.mem_cons_self, by show head + 8 ≤ x; omega, by show x < head + 8 + s.length; omega⟩

theorem readHeader_eq {T A C s : List Byte} (hs : s.length < 2 ^ 64) (hT : T = A ++ headerBytes s ++ C) : readHeader (fun x => T[x]?) A.length = .ok (s, A.length + 8 + s.length) := by
  have hl : T.length = A.length + (8 + s.length) + C.length := by rw [hT, List.length_append, List.length_append, headerBytes_length]
  unfold readHeader
  rw [read_eq T 8 A.length (by omega)]
  have e1 : (T.drop A.length).take 8 = leBytes 8 s.length := by
    rw [hT, List.append_assoc, List.drop_left]
    unfold headerBytes
    rw [List.append_assoc, List.take_append_of_le_length (by rw [leBytes_length]), List.take_of_length_le (by rw [leBytes_length])]
  have e2 : (T.drop (A.length + 8)).take s.length = s := by
    rw [hT, List.append_assoc, ← List.drop_drop, List.drop_left]
    unfold headerBytes
    have : (8 : Nat) = (leBytes 8 s.length).length := by rw [leBytes_length]
    rw [List.append_assoc]
    conv => lhs; arg 2; arg 1; rw [this]
    rw [List.drop_left, List.take_left]
  rw [e1]
  simp only [Res.bind]
  rw [leVal_leBytes 8 s.length (Nat.lt_of_lt_of_eq hs pow256)]
  rw [read_eq T s.length (A.length + 8) (by omega), e2]

end Shamrock
