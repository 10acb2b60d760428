import Verif.Props.Dump
import Verif.Props.SchedEx
/-! # C51: the hypotheses can be met -/
namespace Shamrock

attribute [local irreducible] u64max maxMsg

/-- A length, in unary. -/
def unary (n : Nat) : List Byte := List.replicate n 1 ++ [0]

theorem unary_inj : ∀ (n m : Nat) (r r' : List Byte), unary n ++ r = unary m ++ r' → n = m ∧ r = r' := by
  intro n
  induction n with
  | zero =>
    intro m r r' h
    cases m with
    | zero => exact ⟨rfl, by simpa [unary] using h⟩
    | succ m => simp [unary, List.replicate_succ] at h
  | succ n ih =>
    intro m r r' h
    cases m with
    | zero => simp [unary, List.replicate_succ] at h
    | succ m =>
      simp only [unary, List.replicate_succ, List.cons_append, List.cons.injEq, true_and] at h
      obtain ⟨h1, h2⟩ := ih m r r' (by simpa [unary] using h)
      exact ⟨by rw [h1], h2⟩

/-- A string, its length first. -/
def encStr (s : String) : List Byte := unary s.toList.length ++ s.toList.flatMap fun c => leBytes 4 c.toNat

theorem fixed_inj {A B C D : List Byte} (hl : A.length = B.length) (h : A ++ C = B ++ D) : A = B ∧ C = D := List.append_inj h hl

theorem chars_inj : ∀ (l m : List Char) (r r' : List Byte), l.length = m.length →
    (l.flatMap fun c => leBytes 4 c.toNat) ++ r = (m.flatMap fun c => leBytes 4 c.toNat) ++ r' → l = m ∧ r = r' := by
  intro l
  induction l with
  | nil => intro m r r' hl h; cases m with
    | nil => exact ⟨rfl, h⟩
    | cons => simp at hl
  | cons a l ih => intro m r r' hl h; cases m with
    | nil => simp at hl
    | cons b m =>
      rw [List.flatMap_cons, List.flatMap_cons, List.append_assoc, List.append_assoc] at h
      obtain ⟨h1, h2⟩ := fixed_inj (by rw [leBytes_length, leBytes_length]) h
      obtain ⟨h3, h4⟩ := ih m r r' (by simpa using hl) h2
      have hlt : ∀ c : Char, c.toNat < 256 ^ 4 := fun c => lt_of_lt_of_le c.val.toNat_lt (by decide)
      have := congrArg leVal h1
      rw [leVal_leBytes _ _ (hlt a), leVal_leBytes _ _ (hlt b)] at this
      have hab : a = b := Char.toNat_inj.1 this
      exact ⟨by rw [hab, h3], h4⟩

theorem encStr_inj (s t : String) (r r' : List Byte) (h : encStr s ++ r = encStr t ++ r') : s = t ∧ r = r' := by
  unfold encStr at h
  rw [List.append_assoc, List.append_assoc] at h
  obtain ⟨h1, h2⟩ := unary_inj _ _ _ _ h
  obtain ⟨h3, h4⟩ := chars_inj _ _ _ _ h1 h2
  exact ⟨String.toList_inj.1 h3, h4⟩

mutual
/-- A text for each JSON value (not the text of the library: it only shows that the hypothesis on the text can be met). -/
def jenc : JVal → List Byte
  | .num n => 0 :: leBytes 8 n.toNat
  | .bool b => [1, if b then 1 else 0]
  | .str s => 2 :: encStr s
  | .arr l => 3 :: jencL l
  | .obj l => 4 :: jencO l
def jencL : List JVal → List Byte
  | [] => [0]
  | v :: l => 1 :: (jenc v ++ jencL l)
def jencO : List (String × JVal) → List Byte
  | [] => [0]
  | (k, v) :: l => 1 :: (encStr k ++ (jenc v ++ jencO l))
end

mutual
theorem jenc_inj : ∀ (v w : JVal) (r r' : List Byte), jenc v ++ r = jenc w ++ r' → v = w ∧ r = r'
  | .num n, w, r, r', h => by
    cases w with
    | num m =>
      simp only [jenc, List.cons_append, List.cons.injEq, true_and] at h
      obtain ⟨h1, h2⟩ := fixed_inj (by rw [leBytes_length, leBytes_length]) h
      have := congrArg leVal h1
      rw [leVal_leBytes _ _ (lt_of_lt_of_eq n.isLt pow256), leVal_leBytes _ _ (lt_of_lt_of_eq m.isLt pow256)] at this
      exact ⟨by rw [BitVec.eq_of_toNat_eq this], h2⟩
    | _ => simp [jenc] at h
  | .bool b, w, r, r', h => by
    cases w with
    | bool c =>
      simp only [jenc, List.cons_append, List.cons.injEq, true_and, List.nil_append] at h
      refine ⟨?_, h.2⟩
      cases b <;> cases c <;> simp at h <;> rfl
    | _ => simp [jenc] at h
  | .str s, w, r, r', h => by
    cases w with
    | str t =>
      simp only [jenc, List.cons_append, List.cons.injEq, true_and] at h
      obtain ⟨h1, h2⟩ := encStr_inj _ _ _ _ h
      exact ⟨by rw [h1], h2⟩
    | _ => simp [jenc] at h
  | .arr l, w, r, r', h => by
    cases w with
    | arr m =>
      simp only [jenc, List.cons_append, List.cons.injEq, true_and] at h
      obtain ⟨h1, h2⟩ := jencL_inj l m r r' h
      exact ⟨by rw [h1], h2⟩
    | _ => simp [jenc] at h
  | .obj l, w, r, r', h => by
    cases w with
    | obj m =>
      simp only [jenc, List.cons_append, List.cons.injEq, true_and] at h
      obtain ⟨h1, h2⟩ := jencO_inj l m r r' h
      exact ⟨by rw [h1], h2⟩
    | _ => simp [jenc] at h
theorem jencL_inj : ∀ (l m : List JVal) (r r' : List Byte), jencL l ++ r = jencL m ++ r' → l = m ∧ r = r'
  | [], m, r, r', h => by
    cases m with
    | nil => simp only [jencL, List.cons_append, List.cons.injEq, true_and, List.nil_append] at h; exact ⟨rfl, h⟩
    | cons => simp [jencL] at h
  | v :: l, m, r, r', h => by
    cases m with
    | nil => simp [jencL] at h
    | cons w m =>
      simp only [jencL, List.cons_append, List.cons.injEq, true_and, List.append_assoc] at h
      obtain ⟨h1, h2⟩ := jenc_inj v w _ _ h
      obtain ⟨h3, h4⟩ := jencL_inj l m r r' h2
      exact ⟨by rw [h1, h3], h4⟩
theorem jencO_inj : ∀ (l m : List (String × JVal)) (r r' : List Byte), jencO l ++ r = jencO m ++ r' → l = m ∧ r = r'
  | [], m, r, r', h => by
    cases m with
    | nil => simp only [jencO, List.cons_append, List.cons.injEq, true_and, List.nil_append] at h; exact ⟨rfl, h⟩
    | cons => simp [jencO] at h
  | (k, v) :: l, m, r, r', h => by
    cases m with
    | nil => simp [jencO] at h
    | cons w m =>
      obtain ⟨k', w⟩ := w
      simp only [jencO, List.cons_append, List.cons.injEq, true_and, List.append_assoc] at h
      obtain ⟨h0, h⟩ := encStr_inj _ _ _ _ h
      obtain ⟨h1, h2⟩ := jenc_inj v w _ _ h
      obtain ⟨h3, h4⟩ := jencO_inj l m r r' h2
      exact ⟨by rw [h0, h1, h3], h4⟩
end

/-- The parser of this text. -/
noncomputable def jdec (b : List Byte) : Option JVal := by
  classical exact if h : ∃ v, jenc v = b then some h.choose else none

theorem jdec_jenc (v : JVal) : jdec (jenc v) = some v := by
  unfold jdec
  have h : ∃ w, jenc w = jenc v := ⟨v, rfl⟩
  rw [dif_pos h]
  have := h.choose_spec
  exact congrArg some (jenc_inj h.choose v [] [] (by rw [this])).1

/-- The layer of the example. -/
def dxLayer : PLayer (V3 Int) := [⟨1, [⟨0, 0, 0⟩, ⟨1, 3, 7⟩]⟩]
def dxSer (_ : PLayer (V3 Int)) : Res (List Byte) := .ok [1, 2, 3]
def dxDes (_ : List LField) (_ : List Byte) : Res (PLayer (V3 Int)) := .ok dxLayer
def dxMeta : DumpMeta := ⟨[⟨"xyz", .f64_3, 1⟩, ⟨"vxyz", .f64_3, 1⟩], ⟨sxRoot, .f64_3, jNats [0, 0, 0], jNats [1, 1, 1]⟩, 100, 10, .obj [("time", jNat 4)]⟩
def dxOrd : TreeOrd := ⟨[0], [0], [], [0]⟩
def dxUser (r : Nat) : List Byte := [r, 5]

theorem dx_tree (x : Nat) : (x = 0 → sx2.tree.tree x = some (PTNode.fresh sxRoot 0 u64max 0)) ∧ (x ≠ 0 → sx2.tree.tree x = none) := by
  have H := (sx2_hist.ok sxEnv_ok (by omega) (by omega)).tl.tinv
  have hN : sx2.tree.nextId = 1 := by decide +kernel
  refine ⟨fun h => ?_, fun h => ?_⟩
  · rw [h]; rfl
  · cases ht : sx2.tree.tree x with
    | none => rfl
    | some n => have := H.fresh x n ht; omega

theorem dx_rep : DumpRep dxOrd dxMeta sx2 := by
  have hk : ∀ x n, sx2.tree.tree x = some n → x = 0 ∧ n = PTNode.fresh sxRoot 0 u64max 0 := by
    intro x n h
    by_cases hx : x = 0
    · rw [(dx_tree x).1 hx, Option.some.injEq] at h
      exact ⟨hx, h.symm⟩
    · rw [(dx_tree x).2 hx] at h; cases h
  have H := (sx2_hist.ok sxEnv_ok (by omega) (by omega)).tl.tinv
  have hleaf : ∀ x, sx2.tree.leafKey x = true ↔ x = 0 := by
    intro x
    constructor
    · intro h
      obtain ⟨n, n1, -⟩ := (H.leaf x).1 h
      exact (hk x n n1).1
    · intro h
      rw [h]; decide +kernel
  have hroot : ∀ x, sx2.tree.roots x = true ↔ x = 0 := by
    intro x
    constructor
    · intro h
      by_contra hx
      have h : upd (fun _ => false) 0 true x = true := h
      unfold upd at h
      rw [if_neg hx] at h; cases h
    · intro h
      rw [h]; decide +kernel
  have hpolk : ∀ x, sx2.tree.polk x = false := fun x => rfl
  have hm64 : u64max < 2 ^ 64 := by unfold u64max; omega
  have hroot3 : sxRoot.cmin.Rep ∧ sxRoot.cmax.Rep := by
    have h0 : (0 : Nat) < 2 ^ 64 := by omega
    have h1 : (63 : Nat) < 2 ^ 64 := by omega
    exact ⟨⟨h0, h0, h0⟩, ⟨h1, h1, h1⟩⟩
  refine ⟨⟨?_, ?_, ?_, ⟨_, _, rfl, rfl⟩, ⟨_, rfl⟩, hroot3.1, hroot3.2, ?_, ?_⟩, ⟨?_, ?_, ?_, ?_, ?_⟩, ⟨?_, ?_, ?_, ?_, ?_⟩, ?_, ?_⟩
  · intro f hf
    have hf : f ∈ [(⟨"xyz", .f64_3, 1⟩ : LField), ⟨"vxyz", .f64_3, 1⟩] := hf
    rw [List.mem_cons, List.mem_singleton] at hf
    rcases hf with rfl | rfl
    · show 1 < 2 ^ 32; omega
    · show 1 < 2 ^ 32; omega
  · decide
  · intro f hf
    have hf : f ∈ [(⟨"xyz", .f64_3, 1⟩ : LField), ⟨"vxyz", .f64_3, 1⟩] := hf
    rw [List.mem_cons, List.mem_singleton] at hf
    rcases hf with rfl | rfl <;> decide
  · show 100 < 2 ^ 64; omega
  · show 10 < 2 ^ 64; omega
  · intro k
    show k ∈ [0] ↔ _
    rw [List.mem_singleton]
    exact ⟨fun h => ⟨_, (dx_tree k).1 h⟩, fun ⟨n, h⟩ => (hk k n h).1⟩
  · exact List.nodup_singleton 0
  · intro x
    show x ∈ [0] ↔ _
    rw [List.mem_singleton, hleaf]
  · intro x
    show x ∈ [] ↔ _
    rw [hpolk]; simp
  · intro x
    show x ∈ [0] ↔ _
    rw [List.mem_singleton, hroot]
  · have : sx2.tree.nextId = 1 := by decide +kernel
    rw [this]; omega
  · intro k n h
    obtain ⟨rfl, rfl⟩ := hk k n h
    refine ⟨by omega, ⟨by show 0 < 2 ^ 64; omega, hm64, by show 0 < 2 ^ 32; omega, hm64, rfl, ?_, hroot3.1, hroot3.2⟩⟩
    intro c hc
    have hc : c ∈ u64max :: List.replicate 7 0 := hc
    rcases List.mem_cons.1 hc with rfl | hc
    · exact hm64
    · rw [List.eq_of_mem_replicate hc]; omega
  · intro k h; rw [(hleaf k).1 h]; omega
  · intro k h; rw [hpolk] at h; cases h
  · intro k h; rw [(hroot k).1 h]; omega
  · have : sx2.nextPid = 1 := by decide +kernel
    rw [this]; omega
  · intro p hp
    have hg : sx2.global = [⟨0, u64max, 0, sxRoot, 0⟩] := by decide +kernel
    rw [hg, List.mem_singleton] at hp
    rw [hp]
    exact ⟨by show 0 < 2 ^ 64; omega, hm64, by show 0 < 2 ^ 64; omega, hroot3.1, hroot3.2, by show 0 < 2 ^ 32; omega⟩

theorem dx_global : sx2.global = [⟨0, u64max, 0, sxRoot, 0⟩] := by decide +kernel

theorem dx_ready : DumpReady 2 sx2 := by
  intro p hp
  rw [dx_global, List.mem_singleton] at hp
  rw [hp]
  exact ⟨by show 0 < 2; omega, rfl⟩

theorem dx_owned : Owned 2 sx2.global sx2.data := by
  have h := sx2_hist.okSync sxEnv_ok (by omega) (by omega)
  exact (h.1.dinv.congrKey (ready_perm (by omega) dx_ready h.2).symm).owned

theorem dx_layer (r : Nat) (id : Nat) (l : PLayer (V3 Int)) (h : mfind (sx2.data r) id = some l) : l = dxLayer := by
  have := mfind_mem' _ _ _ h
  rw [sx_data] at this
  split at this
  · rw [List.mem_singleton, Prod.mk.injEq] at this
    exact this.2
  · exact absurd this List.not_mem_nil

theorem dx_codec (lay : List LField) : LayerCodec dxSer (dxDes lay) 2 sx2.data := by
  intro r _ id l h
  rw [dx_layer r id l h]
  exact ⟨_, rfl, rfl⟩

theorem dx_bytes : dumpBytes dxSer 2 sx2.data = 3 := by rfl

theorem dx_write : ∃ ws, writeDump dxSer jenc 2 dxUser dxOrd dxMeta sx2 = .ok ws := by
  refine C51_write dxSer jenc 2 (by omega) (by omega) dxUser dxOrd dxMeta sx2 dx_rep dx_owned (fun r _ id l _ => ⟨_, rfl⟩) (by rw [dx_global]; exact List.cons_ne_nil _ _)
    (by rw [dx_global]; show 1 < 2 ^ 31; omega) (fun r _ => rfl) (by show 2 < 2 ^ 31; omega) ?_ ?_
  · intro j hj
    have e : metaToJson dxOrd dxMeta sx2 = .ok _ := rfl
    rw [e, Res.ok.injEq] at hj
    rw [← hj]
    decide +kernel
  · intro items hi
    have e : dumpAll dxSer sx2.data 2 = .ok _ := rfl
    rw [e, Res.ok.injEq] at hi
    rw [← hi]
    decide +kernel

/-- A state of 2 ranks with a patch and two objects is dumped, the writes reach the file in the opposite order, and it is restarted on 3 ranks: the scheduler is correct and the two objects are there. -/
example : ∃ s', Restarts 2 3 sx2 s' ∧ SchedSpec sxEnv 3 s' ∧ (allObj 3 s'.data).length = 2 ∧ SchedHist sxEnv sxLB ⟨0, 0, 0⟩ 3 s' := by
  obtain ⟨ws, hw⟩ := dx_write
  obtain ⟨f, hf⟩ : ∃ f, DumpFile ws f := ⟨_, ws.flatten.reverse, List.reverse_perm _, rfl⟩
  obtain ⟨L, l1, -⟩ := C51_restore dxSer dxDes jenc jdec jdec_jenc 2 (by omega) dxUser dxOrd dxMeta sx2 dx_rep dx_owned (dx_codec _) (by rw [dx_bytes]; omega) ws hw f hf 3 (by omega) (by omega)
  have hr : Restarts 2 3 sx2 (refreshOwned (fun _ l => l) L.sched) :=
    ⟨dxSer, dxDes, jenc, jdec, dxUser, dxOrd, dxMeta, ws, f, L, fun _ l => l, jdec_jenc, dx_rep, dx_codec _, by rw [dx_bytes]; omega, dx_ready, hw, hf, l1, fun _ _ => List.Perm.refl _, rfl⟩
  obtain ⟨a, b, -⟩ := C51_restart sxEnv sxLB ⟨0, 0, 0⟩ sxEnv_ok 2 3 (by omega) (by omega) (by omega) (by omega) sx2 _ sx2_hist hr
  have hlen : (allObj 2 sx2.data).length = 2 := by decide +kernel
  exact ⟨_, hr, a, by rw [b.length_eq]; exact hlen, SchedHist.restart sx2 _ sx2_hist (by omega) (by omega) hr⟩

/-- A layer of 4-byte values meets the hypotheses of the codec theorem. -/
example : PLayer.Typed [⟨4, 1, 4⟩] [⟨2, [[1, 2, 3, 4], [5, 6, 7, 8]]⟩] ∧ layerBytes [⟨4, 1, 4⟩] [⟨2, [[1, 2, 3, 4], [5, 6, 7, 8]]⟩] < 2 ^ 40 := by
  refine ⟨?_, by decide⟩
  refine List.Forall₂.cons ⟨⟨by decide, by decide, by decide, by decide, by decide⟩, ⟨Nat.zero_lt_two, Nat.dvd_of_mod_eq_zero (by decide), by decide⟩, by decide⟩ List.Forall₂.nil

/-- `sx3` with its patch split, then merged back. -/
def dxS1 : Sched (V3 Int) := match splitOne sxEnv 2 (gidx sx3.global) 0 sx3 0 with
  | .ok s => s
  | _ => sx3
def dxS2 : Sched (V3 Int) := match mergePatches [1] 2 (gidx dxS1.global) [0] dxS1 with
  | .ok s => s
  | _ => sx3

/-- Splitting the patch and merging it back leaves 7 dead patches in the global list. -/
example : splitOne sxEnv 2 (gidx sx3.global) 0 sx3 0 = .ok dxS1 ∧ mergePatches [1] 2 (gidx dxS1.global) [0] dxS1 = .ok dxS2 ∧
    (dxS2.global.filter Patch.isErrMode).length = 7 ∧ (live dxS2.global).length = 1 := by
  have h : (match mergePatches [1] 2 (gidx dxS1.global) [0] dxS1 with
    | .ok _ => true
    | _ => false) = true := by decide +kernel
  have h1 : (match splitOne sxEnv 2 (gidx sx3.global) 0 sx3 0 with
    | .ok _ => true
    | _ => false) = true := by decide +kernel
  refine ⟨?_, ?_, by decide +kernel, by decide +kernel⟩
  · unfold dxS1
    revert h1
    cases splitOne sxEnv 2 (gidx sx3.global) 0 sx3 0 with
    | ok s => intro _; rfl
    | ub => intro h; cases h
    | throws => intro h; cases h
  unfold dxS2
  revert h
  cases mergePatches [1] 2 (gidx dxS1.global) [0] dxS1 with
  | ok s => intro _; rfl
  | ub => intro h; cases h
  | throws => intro h; cases h

end Shamrock
