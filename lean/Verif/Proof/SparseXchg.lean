import Verif.Model.SparseXchg
import Verif.Props.SparseExchange
/-! Lemmas on the payload based sparse communication. -/
namespace Shamrock

/-- A message of the global schedule. -/
structure GMsg (P : Type) where
  snd : Nat
  rcv : Nat
  tag : Nat
  pay : P

def gIter {P : Type} (r : Nat) (g : GMsg P) : XIter P :=
  ⟨if g.snd = r then some ⟨g.rcv, g.tag, g.pay⟩ else none, if g.rcv = r then some ⟨g.snd, g.tag⟩ else none⟩

/-- Program in which iteration `i` is message `i` of the schedule. -/
def gProg {P : Type} (g : List (GMsg P)) (r i : Nat) : XIter P := (g.map (gIter r)).getD i ⟨none, none⟩

theorem gProg_get {P : Type} (g : List (GMsg P)) (r i : Nat) (m : GMsg P) (h : g[i]? = some m) : gProg g r i = gIter r m := by
  unfold gProg
  rw [List.getD_eq_getElem?_getD, List.getElem?_map, h]; rfl

theorem gProg_matched {P : Type} (W : Nat) (g : List (GMsg P)) (hw : ∀ m ∈ g, m.snd < W ∧ m.rcv < W)
    (ht : g.Pairwise fun a b => a.snd = b.snd → a.tag ≠ b.tag) : XMatched W g.length (gProg g) := by
  have hs : ∀ r i x, i < g.length → (gProg g r i).send = some x → ∃ m, g[i]? = some m ∧ m.snd = r ∧ m.rcv = x.dst ∧ m.tag = x.tag ∧ m.pay = x.pay := by
    intro r i x hi hx
    have hg : g[i]? = some g[i] := List.getElem?_eq_getElem hi
    rw [gProg_get g r i _ hg] at hx
    simp only [gIter] at hx
    split at hx
    · rename_i h; cases hx; exact ⟨_, hg, h, rfl, rfl, rfl⟩
    · cases hx
  refine ⟨fun r hr i hi x hx => ?_, fun r hr i hi q hq => ?_, fun r hr i hi j hj x x' hx hx' hd htag => ?_⟩
  · obtain ⟨m, a, b, c, d, e⟩ := hs r i x hi hx
    refine ⟨by rw [← c]; exact (hw m (List.mem_of_getElem? a)).2, ?_⟩
    rw [gProg_get g _ i m a]
    simp only [gIter, if_pos c, b, d]
  · have hg : g[i]? = some g[i] := List.getElem?_eq_getElem hi
    rw [gProg_get g r i _ hg] at hq
    simp only [gIter] at hq
    split at hq
    · rename_i h
      cases hq
      refine ⟨(hw _ (List.mem_of_getElem? hg)).1, g[i].pay, ?_⟩
      rw [gProg_get g _ i _ hg]
      simp only [gIter, if_true, h]
    · cases hq
  · obtain ⟨m, a, b, c, d, -⟩ := hs r i x hi hx
    obtain ⟨m', a', b', c', d', -⟩ := hs r j x' hj hx'
    by_contra hne
    rw [List.pairwise_iff_getElem] at ht
    obtain ⟨i1, i2⟩ := List.getElem?_eq_some_iff.1 a
    obtain ⟨j1, j2⟩ := List.getElem?_eq_some_iff.1 a'
    rcases Nat.lt_or_gt_of_ne hne with hlt | hlt
    · exact ht i j i1 j1 hlt (by rw [i2, j2, b, b']) (by rw [i2, j2, d, d', htag])
    · exact ht j i j1 i1 hlt (by rw [i2, j2, b, b']) (by rw [i2, j2, d, d', htag])

theorem xnet_final_exists {P : Type} {W n lim : Nat} {buf : Bool} {prog : Nat → Nat → XIter P} (hM : XMatched W n prog) (hlim : 0 < lim) :
    ∃ k s, XRun W n lim buf prog k s ∧ s.Final W n prog := by
  have key : ∀ d k s, XRun W n lim buf prog k s → W * (3 * n) ≤ k + d → ∃ k s, XRun W n lim buf prog k s ∧ s.Final W n prog := by
    intro d
    induction d with
    | zero =>
      intro k s hk hb
      rcases xnet_progress hM hlim hk with hF | ⟨s', hs⟩
      · exact ⟨k, s, hk, hF⟩
      · have := xnet_bound hM (XRun.step hk hs); omega
    | succ d ih =>
      intro k s hk hb
      rcases xnet_progress hM hlim hk with hF | ⟨s', hs⟩
      · exact ⟨k, s, hk, hF⟩
      · exact ih (k + 1) s' (XRun.step hk hs) (by omega)
  exact key (W * (3 * n)) 0 _ XRun.init (by omega)

/-! ### The schedule of base_sparse_comm -/

def gBlock {B : Type} (s : Nat) : Nat → List (SxMsg B) → List (GMsg (List B))
  | _, [] => []
  | k, m :: l => ⟨s, m.rcv, k, m.pay⟩ :: gBlock s (k + 1) l

def gAll {B : Type} : Nat → List (List (SxMsg B)) → List (GMsg (List B))
  | _, [] => []
  | s, ms :: l => gBlock s 0 ms ++ gAll (s + 1) l

def gPack {P : Type} (g : GMsg P) : Nat := commPack g.snd g.rcv

theorem gUnpack {P : Type} (g : GMsg P) (h1 : g.snd < 2 ^ 32) (h2 : g.rcv < 2 ^ 32) : commUnpack (gPack g) = (g.snd, g.rcv) :=
  commUnpack_pack _ _ h1 h2

theorem gPack_mk {P : Type} (a b c : Nat) (p : P) : gPack ⟨a, b, c, p⟩ = commPack a b := rfl

attribute [local irreducible] commPack commUnpack gPack

theorem gBlock_map {B : Type} (s k : Nat) (l : List (SxMsg B)) : (gBlock s k l).map gPack = sxLocal s l := by
  induction l generalizing k with
  | nil => rfl
  | cons m l ih =>
    simp only [gBlock, List.map_cons, ih, sxLocal, gPack_mk]

theorem gAll_map {B : Type} (s : Nat) (sends : List (List (SxMsg B))) :
    ((sends.zipIdx s).map fun x => sxLocal x.2 x.1).flatten = (gAll s sends).map gPack := by
  induction sends generalizing s with
  | nil => rfl
  | cons ms l ih =>
    simp only [List.zipIdx_cons, List.map_cons, List.flatten_cons, gAll, List.map_append, gBlock_map, ih]

theorem gBlock_length {B : Type} (s k : Nat) (l : List (SxMsg B)) : (gBlock s k l).length = l.length := by
  induction l generalizing k with
  | nil => rfl
  | cons m l ih => simp [gBlock, ih]

theorem gAll_length {B : Type} (s : Nat) (sends : List (List (SxMsg B))) : (gAll s sends).length = sends.flatten.length := by
  induction sends generalizing s with
  | nil => rfl
  | cons ms l ih => simp [gAll, gBlock_length, ih]

theorem sxTable_ok {B : Type} (sends : List (List (SxMsg B))) (h : sends.flatten.length < 2 ^ 31) :
    sxTable sends = .ok ((gAll 0 sends).map gPack) := by
  unfold sxTable
  rw [allgatherv_ok _ _ _ (by rw [gAll_map, List.length_map, gAll_length]; exact h), gAll_map]
  rfl

theorem gBlock_sizes {B : Type} (s k : Nat) (l : List (SxMsg B)) : (gBlock s k l).map (fun g => g.pay.length) = l.map fun m => m.pay.length := by
  induction l generalizing k with
  | nil => rfl
  | cons m l ih => simp [gBlock, ih]

theorem sxSizes_ok {B : Type} (l : List (SxMsg B)) (h : ∀ m ∈ l, m.pay.length < 2 ^ 31) : sxSizes l = .ok (l.map fun m => m.pay.length) := by
  induction l with
  | nil => rfl
  | cons m l ih =>
    simp only [sxSizes]
    rw [if_neg (by have := h m List.mem_cons_self; omega), ih (fun x hx => h x (List.mem_cons_of_mem _ hx))]; rfl

theorem sxSizes_throws {B : Type} (l : List (SxMsg B)) (h : ∃ m ∈ l, 2 ^ 31 ≤ m.pay.length) : sxSizes l = .throws := by
  induction l with
  | nil => simp at h
  | cons m l ih =>
    simp only [sxSizes]
    by_cases hm : 2 ^ 31 ≤ m.pay.length
    · rw [if_pos hm]
    · rw [if_neg hm]
      obtain ⟨x, hx, h0⟩ := h
      rcases List.mem_cons.1 hx with rfl | hx
      · exact absurd h0 hm
      · rw [ih ⟨x, hx, h0⟩]; rfl

theorem sxSizesAll_ok {B : Type} (sends : List (List (SxMsg B))) (h : ∀ l ∈ sends, ∀ m ∈ l, m.pay.length < 2 ^ 31) :
    sxSizesAll sends = .ok (sends.map fun l => l.map fun m => m.pay.length) := by
  induction sends with
  | nil => rfl
  | cons l sends ih =>
    simp only [sxSizesAll]
    rw [sxSizes_ok l (h l List.mem_cons_self), ih (fun x hx => h x (List.mem_cons_of_mem _ hx))]; rfl

theorem sxSizesAll_throws {B : Type} (sends : List (List (SxMsg B))) (h : ∃ l ∈ sends, ∃ m ∈ l, 2 ^ 31 ≤ m.pay.length) :
    sxSizesAll sends = .throws := by
  induction sends with
  | nil => simp at h
  | cons l sends ih =>
    simp only [sxSizesAll]
    by_cases hl : ∃ m ∈ l, 2 ^ 31 ≤ m.pay.length
    · rw [sxSizes_throws l hl]; rfl
    · rw [sxSizes_ok l (fun m hm => by by_contra hc; exact hl ⟨m, hm, by omega⟩)]
      obtain ⟨x, hx, h0⟩ := h
      rcases List.mem_cons.1 hx with rfl | hx
      · exact absurd h0 hl
      · rw [ih ⟨x, hx, h0⟩]; rfl

theorem gAll_sizes {B : Type} (s : Nat) (sends : List (List (SxMsg B))) :
    (sends.map fun l => l.map fun m => m.pay.length).flatten = (gAll s sends).map fun g => g.pay.length := by
  induction sends generalizing s with
  | nil => rfl
  | cons ms l ih =>
    simp only [List.map_cons, List.flatten_cons, gAll, List.map_append, gBlock_sizes, ih (s + 1)]

theorem sxCommSizes_ok {B : Type} (sends : List (List (SxMsg B))) (hc : sends.flatten.length < 2 ^ 31)
    (h : ∀ l ∈ sends, ∀ m ∈ l, m.pay.length < 2 ^ 31) : sxCommSizes sends = .ok ((gAll 0 sends).map fun g => g.pay.length) := by
  unfold sxCommSizes
  rw [sxSizesAll_ok sends h]
  simp only [Res.bind]
  rw [allgatherv_ok _ _ _ (by rw [gAll_sizes 0, List.length_map, gAll_length]; exact hc), gAll_sizes 0]

/-! Tags -/

def TagsFrom {P : Type} : List (GMsg P) → List Nat → Prop
  | [], _ => True
  | m :: l, tm => tm[m.snd]? = some m.tag ∧ TagsFrom l (tm.set m.snd (m.tag + 1))

theorem tagsFrom_block {B : Type} (s : Nat) (l : List (SxMsg B)) (rest : List (GMsg (List B))) (k : Nat) (tm : List Nat) (h : tm[s]? = some k)
    (hr : TagsFrom rest (tm.set s (k + l.length))) : TagsFrom (gBlock s k l ++ rest) tm := by
  induction l generalizing k tm with
  | nil =>
    have : tm.set s (k + 0) = tm := by
      obtain ⟨h1, h2⟩ := List.getElem?_eq_some_iff.1 h
      rw [Nat.add_zero, ← h2, List.set_getElem_self]
    simp only [List.length_nil, this] at hr
    exact hr
  | cons m l ih =>
    simp only [gBlock, List.cons_append, TagsFrom]
    have hlt := (List.getElem?_eq_some_iff.1 h).1
    refine ⟨h, ih (k + 1) _ (List.getElem?_set_self hlt) ?_⟩
    rw [List.set_set]
    simp only [List.length_cons] at hr
    rw [show k + 1 + l.length = k + (l.length + 1) by omega]
    exact hr

theorem tagsFrom_all {B : Type} (s : Nat) (sends : List (List (SxMsg B))) (tm : List Nat) (h : ∀ i, s ≤ i → i < s + sends.length → tm[i]? = some 0) :
    TagsFrom (gAll s sends) tm := by
  induction sends generalizing s tm with
  | nil => exact trivial
  | cons ms l ih =>
    refine tagsFrom_block s ms _ 0 tm (h s (le_refl _) (by simp)) ?_
    refine ih (s + 1) _ (fun i h1 h2 => ?_)
    rw [List.getElem?_set_ne (by omega)]
    exact h i (by omega) (by simp only [List.length_cons]; omega)

theorem tagsFrom_pairwise {P : Type} (l : List (GMsg P)) (tm : List Nat) (h : TagsFrom l tm) :
    (∀ m ∈ l, tm.getD m.snd 0 ≤ m.tag) ∧ l.Pairwise fun a b => a.snd = b.snd → a.tag ≠ b.tag := by
  induction l generalizing tm with
  | nil => exact ⟨by simp, List.Pairwise.nil⟩
  | cons m l ih =>
    obtain ⟨h1, h2⟩ := h
    obtain ⟨a, b⟩ := ih _ h2
    have hlt := (List.getElem?_eq_some_iff.1 h1).1
    refine ⟨fun x hx => ?_, List.Pairwise.cons (fun x hx hs => ?_) b⟩
    · rcases List.mem_cons.1 hx with rfl | hx
      · rw [List.getD_eq_getElem?_getD, h1]; exact le_refl _
      · have := a x hx
        rw [List.getD_eq_getElem?_getD] at this ⊢
        by_cases he : x.snd = m.snd
        · rw [he, List.getElem?_set_self hlt] at this
          rw [he, h1]
          simp only [Option.getD_some] at this ⊢
          omega
        · rw [List.getElem?_set_ne (fun e => he e.symm)] at this
          exact this
    · have := a x hx
      rw [List.getD_eq_getElem?_getD, ← hs, List.getElem?_set_self hlt] at this
      simp only [Option.getD_some] at this
      omega

theorem gBlock_mem {B : Type} (s k : Nat) (l : List (SxMsg B)) (g : GMsg (List B)) (h : g ∈ gBlock s k l) :
    g.snd = s ∧ ∃ i, g.tag = k + i ∧ l[i]? = some ⟨g.rcv, g.pay⟩ := by
  induction l generalizing k with
  | nil => simp [gBlock] at h
  | cons m l ih =>
    simp only [gBlock, List.mem_cons] at h
    rcases h with rfl | h
    · exact ⟨rfl, 0, rfl, rfl⟩
    · obtain ⟨a, i, b, c⟩ := ih (k + 1) h
      exact ⟨a, i + 1, by omega, by simpa using c⟩

theorem gAll_mem {B : Type} (s : Nat) (sends : List (List (SxMsg B))) (g : GMsg (List B)) (h : g ∈ gAll s sends) :
    ∃ j ms, g.snd = s + j ∧ sends[j]? = some ms ∧ ms[g.tag]? = some ⟨g.rcv, g.pay⟩ := by
  induction sends generalizing s with
  | nil => simp [gAll] at h
  | cons ms l ih =>
    simp only [gAll, List.mem_append] at h
    rcases h with h | h
    · obtain ⟨a, i, b, c⟩ := gBlock_mem _ _ _ _ h
      refine ⟨0, ms, by omega, rfl, ?_⟩
      rw [b, Nat.zero_add]; exact c
    · obtain ⟨j, ms', a, b, c⟩ := ih (s + 1) h
      exact ⟨j + 1, ms', by omega, by simpa using b, c⟩

def gSlots {B : Type} (dflt : B) (r : Nat) (gl : List (GMsg (List B))) : List (Nat × List B) :=
  (gl.filter fun g => decide (g.rcv = r)).map fun g => (g.snd, List.replicate g.pay.length dflt)

def gRecvs {B : Type} (r : Nat) (gl : List (GMsg (List B))) : List (Nat × List B) :=
  (gl.filter fun g => decide (g.rcv = r)).map fun g => (g.snd, g.pay)

theorem sxSlots_ok {B : Type} (dflt : B) (r : Nat) (cs : List Nat) (gl : List (GMsg (List B))) (i : Nat)
    (hcs : ∀ (j : Nat) g, gl[j]? = some g → cs[i + j]? = some g.pay.length) (hw : ∀ g ∈ gl, g.snd < 2 ^ 32 ∧ g.rcv < 2 ^ 32) :
    sxSlots dflt r cs (gl.map gPack) i = .ok (gSlots dflt r gl) := by
  induction gl generalizing i with
  | nil => rfl
  | cons g gl ih =>
    have hih := ih (i + 1) (fun j x hx => by rw [Nat.add_assoc, Nat.add_comm 1 j]; exact hcs (j + 1) x (by simpa using hx))
      (fun x hx => hw x (List.mem_cons_of_mem _ hx))
    obtain ⟨w1, w2⟩ := hw g List.mem_cons_self
    have hup : commUnpack (gPack g) = (g.snd, g.rcv) := gUnpack g w1 w2
    simp only [List.map_cons, sxSlots, hup]
    have h0 : cs[i]? = some g.pay.length := hcs 0 g rfl
    by_cases hr : g.rcv = r
    · rw [if_pos hr, h0]
      simp only
      rw [hih]
      simp [Res.bind, gSlots, hr]
    · rw [if_neg hr, hih]
      simp [gSlots, hr]

theorem sxLoop_step {B : Type} (r : Nat) (ms : List (SxMsg B)) (cs : List Nat) (slots : List (Nat × List B)) (v : Nat) (l : List Nat)
    (i sendIdx recvIdx : Nat) (tm : List Nat) (tag : Nat) (x : Option (NSend (List B))) (q : Option NRecv) (t : List (XIter (List B)))
    (h1 : tm[(commUnpack v).1]? = some tag) (h2 : sxSend r ms v tag sendIdx = .ok x) (h3 : sxRecv r cs slots v tag i recvIdx = .ok q)
    (h4 : sxLoop r ms cs slots l (i + 1) (if (commUnpack v).1 = r then sendIdx + 1 else sendIdx) (if (commUnpack v).2 = r then recvIdx + 1 else recvIdx)
        (tm.set (commUnpack v).1 (tag + 1)) = .ok t) :
    sxLoop r ms cs slots (v :: l) i sendIdx recvIdx tm = .ok (⟨x, q⟩ :: t) := by
  rw [sxLoop, h1]
  dsimp only
  rw [h2]
  dsimp only [Res.bind]
  rw [h3]
  dsimp only [Res.bind]
  rw [h4]

theorem sxLoop_ok {B : Type} (dflt : B) (r : Nat) (ms : List (SxMsg B)) (cs : List Nat) (gl : List (GMsg (List B)))
    (pre : List (Nat × List B)) (slots : List (Nat × List B)) (i sendIdx recvIdx : Nat) (tm : List Nat)
    (hcs : ∀ (j : Nat) g, gl[j]? = some g → cs[i + j]? = some g.pay.length) (hw : ∀ g ∈ gl, g.snd < 2 ^ 32 ∧ g.rcv < 2 ^ 32)
    (ht : TagsFrom gl tm) (hs : sendIdx = tm.getD r 0) (hms : ∀ g ∈ gl, g.snd = r → ms[g.tag]? = some ⟨g.rcv, g.pay⟩)
    (hsl : slots = pre ++ gSlots dflt r gl) (hpre : recvIdx = pre.length) :
    sxLoop r ms cs slots (gl.map gPack) i sendIdx recvIdx tm = .ok (gl.map (gIter r)) := by
  induction gl generalizing i sendIdx recvIdx tm pre with
  | nil => rfl
  | cons g gl ih =>
    obtain ⟨w1, w2⟩ := hw g List.mem_cons_self
    obtain ⟨t1, t2⟩ := ht
    have hlt := (List.getElem?_eq_some_iff.1 t1).1
    have hup : commUnpack (gPack g) = (g.snd, g.rcv) := gUnpack g w1 w2
    have h0 : cs[i]? = some g.pay.length := hcs 0 g rfl
    have hcs' : ∀ (j : Nat) x, gl[j]? = some x → cs[i + 1 + j]? = some x.pay.length := fun j x hx => by
      rw [Nat.add_assoc, Nat.add_comm 1 j]; exact hcs (j + 1) x (by simpa using hx)
    have hsend : sxSend r ms (gPack g) g.tag sendIdx = .ok (gIter r g).send := by
      unfold sxSend
      rw [hup]
      simp only [gIter]
      by_cases hr : g.snd = r
      · have hst : sendIdx = g.tag := by
          rw [hs, List.getD_eq_getElem?_getD, ← hr, t1]; rfl
        rw [if_pos hr, if_pos hr, hst, hms g List.mem_cons_self hr]
      · rw [if_neg hr, if_neg hr]
    have hrecv : sxRecv r cs slots (gPack g) g.tag i recvIdx = .ok (gIter r g).recv := by
      unfold sxRecv
      rw [hup]
      simp only [gIter]
      by_cases hr : g.rcv = r
      · have hg : slots[recvIdx]? = some (g.snd, List.replicate g.pay.length dflt) := by
          rw [hsl, hpre, List.getElem?_append_right (le_refl _), Nat.sub_self]
          simp [gSlots, hr]
        rw [if_pos hr, if_pos hr, hg]
        simp only [h0]
        rw [if_pos (by simp)]
      · rw [if_neg hr, if_neg hr]
    have hih : sxLoop r ms cs slots (gl.map gPack) (i + 1) (if (commUnpack (gPack g)).1 = r then sendIdx + 1 else sendIdx)
        (if (commUnpack (gPack g)).2 = r then recvIdx + 1 else recvIdx) (tm.set (commUnpack (gPack g)).1 (g.tag + 1)) = .ok (gl.map (gIter r)) := by
      rw [hup]
      simp only
      have hs' : (if g.snd = r then sendIdx + 1 else sendIdx) = (tm.set g.snd (g.tag + 1)).getD r 0 := by
        rw [List.getD_eq_getElem?_getD]
        by_cases hr : g.snd = r
        · rw [if_pos hr, ← hr, List.getElem?_set_self hlt, hs, List.getD_eq_getElem?_getD, ← hr, t1]; rfl
        · rw [if_neg hr, List.getElem?_set_ne hr, hs, List.getD_eq_getElem?_getD]
      by_cases hr : g.rcv = r
      · refine ih (pre ++ [(g.snd, List.replicate g.pay.length dflt)]) (i + 1) _ _ _ hcs' (fun x hx => hw x (List.mem_cons_of_mem _ hx)) t2 hs'
          (fun x hx => hms x (List.mem_cons_of_mem _ hx)) ?_ ?_
        · rw [hsl]; simp [gSlots, hr]
        · rw [if_pos hr]; simp [hpre]
      · refine ih pre (i + 1) _ _ _ hcs' (fun x hx => hw x (List.mem_cons_of_mem _ hx)) t2 hs'
          (fun x hx => hms x (List.mem_cons_of_mem _ hx)) ?_ ?_
        · rw [hsl]; simp [gSlots, hr]
        · rw [if_neg hr]; exact hpre
    have ht1' : tm[(commUnpack (gPack g)).1]? = some g.tag := by rw [hup]; exact t1
    rw [List.map_cons, List.map_cons]
    exact sxLoop_step r ms cs slots _ _ i sendIdx recvIdx tm g.tag (gIter r g).send (gIter r g).recv _ ht1' hsend hrecv hih

theorem blockWrite_full {B : Type} (b p : List B) (h : p.length = b.length) : blockWrite b 0 p = .ok p := by
  unfold blockWrite
  rw [if_pos (by omega)]
  simp [h]

theorem sxStore_ok {B : Type} (dflt : B) (r : Nat) (got : Nat → Option (List B)) (gl : List (GMsg (List B))) (pre : List (Nat × List B)) (i : Nat)
    (hg : ∀ (j : Nat) g, gl[j]? = some g → g.rcv = r → got (i + j) = some g.pay) :
    sxStore got (gl.map (gIter r)) i pre.length (pre ++ gSlots dflt r gl) = .ok (pre ++ gRecvs r gl) := by
  induction gl generalizing i pre with
  | nil => rfl
  | cons g gl ih =>
    have hg' : ∀ (j : Nat) x, gl[j]? = some x → x.rcv = r → got (i + 1 + j) = some x.pay := fun j x hx => by
      rw [Nat.add_assoc, Nat.add_comm 1 j]; exact hg (j + 1) x (by simpa using hx)
    simp only [List.map_cons, sxStore]
    by_cases hr : g.rcv = r
    · have e1 : (gIter r g).recv.isSome = true := by simp [gIter, hr]
      have e2 : (pre ++ gSlots dflt r (g :: gl))[pre.length]? = some (g.snd, List.replicate g.pay.length dflt) := by
        rw [List.getElem?_append_right (le_refl _), Nat.sub_self]
        simp [gSlots, hr]
      have e3 : got i = some g.pay := hg 0 g rfl hr
      rw [if_pos e1, e2, e3]
      simp only
      rw [blockWrite_full _ _ (by simp)]
      simp only [Res.bind]
      have e4 : (pre ++ gSlots dflt r (g :: gl)).set pre.length (g.snd, g.pay) = (pre ++ [(g.snd, g.pay)]) ++ gSlots dflt r gl := by
        rw [List.set_append_right _ _ (le_refl _), Nat.sub_self]
        simp [gSlots, hr]
      rw [e4]
      have := ih (pre ++ [(g.snd, g.pay)]) (i + 1) hg'
      rw [List.length_append] at this
      simp only [List.length_singleton] at this
      rw [this]
      simp [gRecvs, hr]
    · have e1 : (gIter r g).recv.isSome = false := by simp [gIter, hr]
      rw [e1]
      simp only [Bool.false_eq_true, if_false]
      have h1 : gSlots dflt r (g :: gl) = gSlots dflt r gl := by simp [gSlots, hr]
      have h2 : gRecvs r (g :: gl) = gRecvs r gl := by simp [gRecvs, hr]
      rw [h1, h2]
      exact ih pre (i + 1) hg'

theorem gBlock_recvs {B : Type} (r s k : Nat) (l : List (SxMsg B)) :
    gRecvs r (gBlock s k l) = (l.filter fun m => decide (m.rcv = r)).map fun m => (s, m.pay) := by
  induction l generalizing k with
  | nil => rfl
  | cons m l ih =>
    have := ih (k + 1)
    unfold gRecvs at this ⊢
    by_cases hr : m.rcv = r <;> simp [gBlock, hr, this]

theorem gAll_recvs {B : Type} (r s : Nat) (sends : List (List (SxMsg B))) :
    gRecvs r (gAll s sends) = ((sends.zipIdx s).map fun x => (x.1.filter fun m => decide (m.rcv = r)).map fun m => (x.2, m.pay)).flatten := by
  induction sends generalizing s with
  | nil => rfl
  | cons ms l ih =>
    simp only [List.zipIdx_cons, List.map_cons, List.flatten_cons, ← ih (s + 1), ← gBlock_recvs r s 0 ms, gAll]
    unfold gRecvs
    rw [List.filter_append, List.map_append]

end Shamrock
