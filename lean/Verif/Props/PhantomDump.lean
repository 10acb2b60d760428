import Verif.Model.PhantomDump
import Verif.Props.Fortran
/-! C48: Phantom dump files round trip. -/
namespace Shamrock

/-! ### Combinators -/

/-- `f` reads `a` from the bytes `enc`, wherever they are, and stops after them. -/
def Reads {α : Type} (f : Strm → Res (α × Strm)) (enc : List Byte) (a : α) : Prop :=
  ∀ pre post pp, f ⟨pre ++ (enc ++ post), pre.length, pp, false⟩ =
    .ok (a, ⟨pre ++ (enc ++ post), (pre ++ enc).length, pp, false⟩)

/-- `f` appends the bytes `enc`. -/
def Writes (f : Strm → Res Strm) (enc : List Byte) : Prop :=
  ∀ st : Strm, st.bad = false → st.ppos = st.buf.length → f st = .ok (st.app enc)

theorem Reads.bind {α β : Type} {f : Strm → Res (α × Strm)} {g : α → Strm → Res (β × Strm)} {e e' : List Byte} {a : α} {b : β}
    (h1 : Reads f e a) (h2 : Reads (g a) e' b) : Reads (fun st => f st >>= fun x => g x.1 x.2) (e ++ e') b := by
  intro pre post pp
  have h1 := h1 pre (e' ++ post) pp
  have h2 := h2 (pre ++ e) post pp
  have e1 : pre ++ (e ++ e' ++ post) = pre ++ (e ++ (e' ++ post)) := by simp
  have e2 : pre ++ (e ++ (e' ++ post)) = (pre ++ e) ++ (e' ++ post) := by simp
  show (f _ >>= fun x => g x.1 x.2) = _
  rw [e1, h1]
  simp only [Res.ok_bind]
  rw [e2, h2]
  simp

theorem Reads.pure' {α : Type} (a : α) : Reads (fun st => .ok (a, st)) [] a := by
  intro pre post pp; simp

theorem Reads.map {α β : Type} {f : Strm → Res (α × Strm)} {e : List Byte} {a : α} (g : α → β) (h : Reads f e a) :
    Reads (fun st => f st >>= fun x => Res.ok (g x.1, x.2)) e (g a) := by
  have := h.bind (g := fun x st => Res.ok (g x, st)) (Reads.pure' (g a))
  simpa using this

theorem Writes.bind {f g : Strm → Res Strm} {e e' : List Byte} (h1 : Writes f e) (h2 : Writes g e') :
    Writes (fun st => f st >>= g) (e ++ e') := by
  intro st hb hp
  show (f st >>= g) = _
  rw [h1 st hb hp]
  simp only [Res.ok_bind]
  rw [h2 (st.app e) hb rfl, Strm.app_app]

theorem Writes.nil : Writes (fun st => .ok st) [] := by
  intro st hb hp; simp [Strm.app, ← hp]

theorem seqWrite_writes {α : Type} (f : α → Strm → Res Strm) (enc : α → List Byte) (l : List α)
    (h : ∀ a ∈ l, Writes (f a) (enc a)) : Writes (seqWrite f l) (l.flatMap enc) := by
  induction l with
  | nil => exact Writes.nil
  | cons a r ih =>
    rw [List.flatMap_cons]
    exact (h a List.mem_cons_self).bind (ih (fun x hx => h x (List.mem_cons_of_mem _ hx)))

theorem seqRead_reads {α : Type} (f : Strm → Res (α × Strm)) (enc : α → List Byte) (l : List α)
    (h : ∀ a ∈ l, Reads f (enc a) a) : Reads (seqRead f l.length) (l.flatMap enc) l := by
  induction l with
  | nil => exact Reads.pure' []
  | cons a r ih =>
    rw [List.flatMap_cons]
    exact (h a List.mem_cons_self).bind (g := fun a st => seqRead f r.length st >>= fun x => Res.ok (a :: x.1, x.2))
      ((ih (fun x hx => h x (List.mem_cons_of_mem _ hx))).map (a :: ·))

theorem mapRead_reads {κ α : Type} (f : κ → Strm → Res (α × Strm)) (enc : κ × α → List Byte) (ks : List κ) :
    ∀ (l : List α), ks.length = l.length → (∀ p ∈ ks.zip l, Reads (f p.1) (enc p) p.2) →
    Reads (mapRead f ks) ((ks.zip l).flatMap enc) l := by
  induction ks with
  | nil => intro l hl _; cases l with
    | nil => exact Reads.pure' []
    | cons _ _ => simp at hl
  | cons k ks ih =>
    intro l hl h
    cases l with
    | nil => simp at hl
    | cons a r =>
      simp only [List.zip_cons_cons, List.flatMap_cons, List.length_cons] at *
      exact (h (k, a) List.mem_cons_self).bind (g := fun a st => mapRead f ks st >>= fun x => Res.ok (a :: x.1, x.2))
        ((ih r (by omega) (fun x hx => h x (List.mem_cons_of_mem _ hx))).map (a :: ·))

theorem FRec.writes (r : FRec) (hl : r.Legal) : Writes r.run r.enc := fun st hb hp => r.run_app hl st hb hp
theorem FReq.reads (r : FRec) (q : FReq) (hl : r.Legal) (hm : FMatch r q) : Reads q.run r.enc r.value :=
  fun pre post pp => FReq.run_mid r q hl hm pre post pp

/-! ### Specification -/

/-- Dumps a program can write and expect back: 16 byte tags, a 100 byte file id, the right number of typed tables and arrays, every
array of a block has `tot` elements of its type, every record is below 2^31 bytes. -/
structure PhTableOk (sz : Nat) (t : PhTable) : Prop where
  tag : ∀ e ∈ t, e.1.length = 16
  val : ∀ e ∈ t, e.2.length = sz
  small : 16 * t.length < 2 ^ 31
structure PhBlockOk (b : PhBlock) : Prop where
  eight : b.arrays.length = 8
  count : ∀ as ∈ b.arrays, as.length < 2 ^ 31
  small : 8 * b.tot < 2 ^ 31
  arrays : ∀ p ∈ phSizes.zip b.arrays, ∀ a ∈ p.2, a.tag.length = 16 ∧ a.vals.length = b.tot ∧ ∀ v ∈ a.vals, v.length = p.1
structure PhOk (d : PhDump) : Prop where
  l1 : d.i1 = leBytes 4 60769
  l2 : d.i2 = leBytes 4 60878
  l3 : d.i3 = leBytes 4 690706
  lr : d.r1 = leBytes 8 0x40EDB9C000000000
  lv : d.iversion.length = 4
  fid : d.fileid.length = 100
  eight : d.tables.length = 8
  tables : ∀ p ∈ phSizes.zip d.tables, PhTableOk p.1 p.2
  nblocks : d.blocks.length < 2 ^ 31
  blocks : ∀ b ∈ d.blocks, PhBlockOk b

/-! ### Proofs -/

theorem phSizes_le : ∀ s ∈ phSizes, 1 ≤ s ∧ s ≤ 8 := by decide

/-- Records of a table. -/
def phTableRecs (sz : Nat) (t : PhTable) : List FRec :=
  .vals [leBytes 4 t.length] ::
    if t.length = 0 then [] else [.sarr (t.map (·.1)) 16 t.length, .varr sz (t.map (·.2)) t.length]

theorem phTable_legal (sz : Nat) (t : PhTable) (h : PhTableOk sz t) (hs : sz ≤ 8) : ∀ r ∈ phTableRecs sz t, r.Legal := by
  intro r hr
  have hsm := h.small
  have hmul : sz * t.length ≤ 8 * t.length := Nat.mul_le_mul_right _ hs
  unfold phTableRecs at hr
  rcases List.mem_cons.1 hr with rfl | hr
  · simp [FRec.Legal, sizesSum, leBytes_length]
  · split at hr
    · cases hr
    · rcases List.mem_cons.1 hr with rfl | hr
      · refine ⟨by simp, ?_, hsm⟩
        intro s hs
        obtain ⟨e, he, rfl⟩ := List.mem_map.1 hs
        exact le_of_eq (h.tag e he).symm
      · rw [List.mem_singleton.1 hr]
        refine ⟨by simp, ?_, by omega⟩
        intro s hs
        obtain ⟨e, he, rfl⟩ := List.mem_map.1 hs
        exact h.val e he

theorem phTable_writes (sz : Nat) (t : PhTable) (h : PhTableOk sz t) (hs : sz ≤ 8) :
    Writes (phTableWrite sz t) ((phTableRecs sz t).flatMap FRec.enc) := by
  have hl := phTable_legal sz t h hs
  have hsm := h.small
  have ev : leVal (leBytes 4 t.length) = t.length := leVal_leBytes 4 _ (by norm_num; omega)
  intro st hb hp
  unfold phTableWrite asU32
  simp only [ev]
  unfold phTableRecs at hl ⊢
  have h1 := (FRec.writes _ (hl _ List.mem_cons_self)) st hb hp
  simp only [FRec.run, Res.ok.injEq] at h1
  rw [h1]
  by_cases h0 : t.length = 0
  · simp only [h0, if_true]
    rw [List.flatMap_cons]; simp
  · simp only [h0, if_false] at hl ⊢
    have h2 := (FRec.writes _ (hl _ (List.mem_cons_of_mem _ List.mem_cons_self))) (st.app (FRec.enc (.vals [leBytes 4 t.length]))) hb rfl
    have h3 := (FRec.writes _ (hl _ (List.mem_cons_of_mem _ (List.mem_cons_of_mem _ List.mem_cons_self))))
      ((st.app (FRec.enc (.vals [leBytes 4 t.length]))).app (FRec.enc (.sarr (t.map (·.1)) 16 t.length))) hb rfl
    simp only [FRec.run] at h2 h3
    rw [h2]
    simp only [Res.ok_bind]
    rw [h3, Strm.app_app, Strm.app_app]
    simp

theorem zip_map_fst_snd (t : PhTable) : (t.map (·.1)).zip (t.map (·.2)) = t := by
  induction t with
  | nil => rfl
  | cons a r ih => simp [ih]

theorem map_take_len (l : List (List Byte)) (n : Nat) (h : ∀ s ∈ l, s.length = n) : l.map (List.take n) = l := by
  have : ∀ s ∈ l, List.take n s = id s := fun s hs => by rw [← h s hs, List.take_length]; rfl
  rw [List.map_congr_left this]; simp

theorem phTable_reads (sz : Nat) (t : PhTable) (h : PhTableOk sz t) (hs : sz ≤ 8) :
    Reads (phTableRead sz) ((phTableRecs sz t).flatMap FRec.enc) t := by
  have hl := phTable_legal sz t h hs
  have hsm := h.small
  have ev : leVal (leBytes 4 t.length) = t.length := leVal_leBytes 4 _ (by norm_num; omega)
  unfold phTableRecs at hl ⊢
  have h1 := FReq.reads (.vals [leBytes 4 t.length]) (.vals [leBytes 4 0]) (hl _ List.mem_cons_self) (by simp [FMatch, leBytes_length])
  rw [List.flatMap_cons]
  refine h1.bind (g := fun r st => if leVal (r.headD []) = 0 then .ok ([], st) else
    fReadStringArray 16 (asU32 (r.headD [])) st >>= fun x => fReadValArray sz (asU32 (r.headD [])) x.2 >>= fun y =>
      Res.ok (x.1.zip y.1, y.2)) ?_
  show Reads (fun st => if leVal (leBytes 4 t.length) = 0 then _ else _) _ _
  by_cases h0 : t.length = 0
  · rw [ev]
    simp only [h0, if_true]
    have : t = [] := List.length_eq_zero_iff.1 h0
    subst this
    exact Reads.pure' []
  · rw [ev]
    simp only [h0, if_false] at hl ⊢
    have h2 := FReq.reads _ (.sarr 16 t.length) (hl _ (List.mem_cons_of_mem _ List.mem_cons_self)) ⟨rfl, rfl⟩
    have h3 := FReq.reads _ (.varr sz t.length) (hl _ (List.mem_cons_of_mem _ (List.mem_cons_of_mem _ List.mem_cons_self))) ⟨rfl, rfl⟩
    have v2 : FRec.value (.sarr (t.map (·.1)) 16 t.length) = t.map (·.1) := by
      simp only [FRec.value]
      rw [List.take_of_length_le (by simp)]
      exact map_take_len _ _ (fun s hs => by obtain ⟨e, he, rfl⟩ := List.mem_map.1 hs; exact h.tag e he)
    have v3 : FRec.value (.varr sz (t.map (·.2)) t.length) = t.map (·.2) := by
      simp only [FRec.value]
      rw [List.take_of_length_le (by simp)]
    rw [v2] at h2
    rw [v3] at h3
    have h4 := h2.bind (g := fun (x : List (List Byte)) (st : Strm) => fReadValArray sz t.length st >>= fun y => Res.ok (x.zip y.1, y.2))
      (h3.map (fun y : List (List Byte) => (t.map (fun e : List Byte × List Byte => e.1)).zip y))
    rw [zip_map_fst_snd] at h4
    have e : asU32 (([leBytes 4 t.length] : List (List Byte)).headD []) = t.length := ev
    simp only [FRec.value, e]
    rw [List.flatMap_cons, List.flatMap_cons, List.flatMap_nil, List.append_nil]
    exact h4

/-- Bytes of an array. -/
def phArrayEnc (sz tot : Nat) (a : PhArray) : List Byte := FRec.enc (.fstr a.tag 16) ++ FRec.enc (.varr sz a.vals tot)

theorem phArray_codec (sz tot : Nat) (a : PhArray) (hs : sz ≤ 8) (ht : 8 * tot < 2 ^ 31) (h1 : a.tag.length = 16)
    (h2 : a.vals.length = tot) (h3 : ∀ v ∈ a.vals, v.length = sz) :
    Writes (phArrayWrite sz tot a) (phArrayEnc sz tot a) ∧ Reads (phArrayRead sz tot) (phArrayEnc sz tot a) a := by
  have hmul : sz * tot ≤ 8 * tot := Nat.mul_le_mul_right _ hs
  have l1 : FRec.Legal (.fstr a.tag 16) := ⟨by omega, (by decide : (16:Nat) < 2 ^ 31)⟩
  have l2 : FRec.Legal (.varr sz a.vals tot) := ⟨by omega, h3, by omega⟩
  have em : tot % 2 ^ 32 = tot := Nat.mod_eq_of_lt (by omega)
  refine ⟨?_, ?_⟩
  · have := (FRec.writes _ l1).bind (FRec.writes _ l2)
    unfold phArrayWrite
    rw [em]
    exact this
  · have r1 := FReq.reads (.fstr a.tag 16) (.fstr [] 16) l1 rfl
    have r2 := FReq.reads (.varr sz a.vals tot) (.varr sz tot) l2 ⟨rfl, rfl⟩
    have v1 : FRec.value (.fstr a.tag 16) = [a.tag] := by simp only [FRec.value]; rw [← h1, List.take_length]
    have v2 : FRec.value (.varr sz a.vals tot) = a.vals := by simp only [FRec.value]; rw [← h2, List.take_length]
    rw [v1] at r1
    rw [v2] at r2
    have r1' : Reads (fun st => fReadFixedString [] 16 st) (FRec.enc (.fstr a.tag 16)) a.tag := by
      intro pre post pp
      have := r1 pre post pp
      simp only [FReq.run] at this
      cases hq : fReadFixedString [] 16 ⟨pre ++ (FRec.enc (.fstr a.tag 16) ++ post), pre.length, pp, false⟩ with
      | ok q =>
        rw [hq] at this
        simp only [Res.ok_bind, Res.pure_eq, Res.ok.injEq, Prod.mk.injEq, List.cons.injEq, and_true] at this
        show fReadFixedString [] 16 _ = _
        rw [hq]
        obtain ⟨q1, q2⟩ := q
        simp only at this
        rw [this.1, this.2]
      | throws => rw [hq] at this; cases this
      | ub => rw [hq] at this; cases this
    have := r1'.bind (g := fun tag st => fReadValArray sz tot st >>= fun y => Res.ok ((⟨tag, y.1⟩ : PhArray), y.2))
      (r2.map (fun y => (⟨a.tag, y⟩ : PhArray)))
    unfold phArrayRead
    rw [em]
    exact this

/-- Bytes of a block. -/
def phBlockEnc (b : PhBlock) : List Byte :=
  (phSizes.zip b.arrays).flatMap (fun p => p.2.flatMap (phArrayEnc p.1 b.tot))

theorem phBlock_writes (b : PhBlock) (h : PhBlockOk b) : Writes (phBlockWrite b) (phBlockEnc b) := by
  unfold phBlockWrite phBlockEnc
  refine seqWrite_writes _ _ _ ?_
  intro p hp
  have hs := (phSizes_le p.1 (List.of_mem_zip hp).1).2
  refine seqWrite_writes _ _ _ ?_
  intro a ha
  obtain ⟨h1, h2, h3⟩ := h.arrays p hp a ha
  exact (phArray_codec p.1 b.tot a hs h.small h1 h2 h3).1

theorem zip_map_len {α β : Type} (ks : List α) : ∀ (l : List (List β)),
    ks.zip (l.map List.length) = (ks.zip l).map (fun p => (p.1, p.2.length)) := by
  induction ks with
  | nil => intro l; rfl
  | cons k ks ih => intro l; cases l with
    | nil => rfl
    | cons a r => simp [ih]

theorem mapRead_map {κ κ' α : Type} (g : κ → κ') (f : κ' → Strm → Res (α × Strm)) (ks : List κ) :
    ∀ st, mapRead f (ks.map g) st = mapRead (fun k => f (g k)) ks st := by
  induction ks with
  | nil => intro st; rfl
  | cons k ks ih =>
    intro st
    simp only [List.map_cons, mapRead]
    cases f (g k) st with
    | ok q => simp only [Res.ok_bind]; rw [ih]
    | throws => rfl
    | ub => rfl

theorem phBlock_reads (b : PhBlock) (h : PhBlockOk b) :
    Reads (phBlockRead b.tot (b.arrays.map List.length)) (phBlockEnc b) b := by
  have key : Reads (mapRead (fun (p : Nat × Nat) st => seqRead (phArrayRead p.1 b.tot) p.2 st)
      (phSizes.zip (b.arrays.map List.length))) (phBlockEnc b) b.arrays := by
    rw [zip_map_len]
    intro pre post pp
    rw [mapRead_map]
    have : Reads (mapRead (fun (p : Nat × List PhArray) st => seqRead (phArrayRead p.1 b.tot) p.2.length st)
        (phSizes.zip b.arrays)) (phBlockEnc b) b.arrays := by
      have hlen : phSizes.length = b.arrays.length := by rw [h.eight]; rfl
      have e1 : (phSizes.zip b.arrays).zip b.arrays = (phSizes.zip b.arrays).map (fun p => (p, p.2)) := by
        have gen : ∀ (ks : List Nat) (l : List (List PhArray)), (ks.zip l).zip l = (ks.zip l).map (fun p => (p, p.2)) := by
          intro ks
          induction ks with
          | nil => intro l; rfl
          | cons k ks ih => intro l; cases l with
            | nil => rfl
            | cons a r => simp [ih]
        exact gen _ _
      have := mapRead_reads (fun (p : Nat × List PhArray) st => seqRead (phArrayRead p.1 b.tot) p.2.length st)
        (fun q => q.2.flatMap (phArrayEnc q.1.1 b.tot)) (phSizes.zip b.arrays) b.arrays (by rw [List.length_zip]; omega) (by
          intro q hq
          rw [e1] at hq
          obtain ⟨p, hp, rfl⟩ := List.mem_map.1 hq
          have hs := (phSizes_le p.1 (List.of_mem_zip hp).1).2
          refine seqRead_reads _ _ _ ?_
          intro a ha
          obtain ⟨h1, h2, h3⟩ := h.arrays p hp a ha
          exact (phArray_codec p.1 b.tot a hs h.small h1 h2 h3).2)
      rw [e1, List.flatMap_map] at this
      exact this
    exact this pre post pp
  exact key.map (fun arrays => (⟨b.tot, arrays⟩ : PhBlock))

theorem u32sOf_counts (l : List (List PhArray)) (h : ∀ as ∈ l, as.length < 2 ^ 31) :
    u32sOf (l.flatMap (fun a => leBytes 4 a.length)) = l.map List.length := by
  induction l with
  | nil => rfl
  | cons a r ih =>
    rw [List.flatMap_cons, List.map_cons, ← ih (fun x hx => h x (List.mem_cons_of_mem _ hx))]
    have hlt := h a List.mem_cons_self
    have ev : leVal (leBytes 4 a.length) = a.length := leVal_leBytes 4 _ (by norm_num; omega)
    have hlen := leBytes_length 4 a.length
    generalize leBytes 4 a.length = w at *
    match w, hlen with
    | [b0, b1, b2, b3], _ => simp only [List.cons_append, List.nil_append, u32sOf]; rw [ev]

theorem phCounts_length (b : PhBlock) (h : b.arrays.length = 8) : (phCounts b).length = 32 := by
  have gen : ∀ l : List (List PhArray), (l.flatMap (fun a => leBytes 4 a.length)).length = 4 * l.length := by
    intro l
    induction l with
    | nil => rfl
    | cons a r ih => rw [List.flatMap_cons, List.length_append, ih, leBytes_length, List.length_cons]; omega
  unfold phCounts
  rw [gen, h]

/-- Whole file. -/
def phEnc (d : PhDump) : List Byte :=
  FRec.enc (.vals [d.i1, d.r1, d.i2, d.iversion, d.i3]) ++ (FRec.enc (.fstr d.fileid 100) ++
    ((phSizes.zip d.tables).flatMap (fun p => (phTableRecs p.1 p.2).flatMap FRec.enc) ++
      (FRec.enc (.vals [leBytes 4 d.blocks.length]) ++
        (d.blocks.flatMap (fun b => FRec.enc (.vals [leBytes 8 b.tot, phCounts b])) ++ d.blocks.flatMap phBlockEnc))))

theorem PhOk.legal1 {d : PhDump} (h : PhOk d) : FRec.Legal (.vals [d.i1, d.r1, d.i2, d.iversion, d.i3]) := by
  simp [FRec.Legal, sizesSum, h.l1, h.l2, h.l3, h.lr, h.lv, leBytes_length]

theorem PhOk.legal2 {d : PhDump} (h : PhOk d) : FRec.Legal (.fstr d.fileid 100) := ⟨by rw [h.fid], (by decide : (100:Nat) < 2 ^ 31)⟩

theorem legal4 (n : Nat) : FRec.Legal (.vals [leBytes 4 n]) := by simp [FRec.Legal, sizesSum, leBytes_length]

theorem PhBlockOk.legal {b : PhBlock} (h : PhBlockOk b) : FRec.Legal (.vals [leBytes 8 b.tot, phCounts b]) := by
  simp [FRec.Legal, sizesSum, leBytes_length, phCounts_length b h.eight]

theorem phGen_spec (d : PhDump) (h : PhOk d) : d.genFile = .ok ((⟨[], 0, 0, false⟩ : Strm).app (phEnc d)) := by
  have w1 : Writes (fun st => .ok (fWrite [d.i1, d.r1, d.i2, d.iversion, d.i3] st)) _ := FRec.writes _ h.legal1
  have w2 : Writes (fun st => fWriteFixedString d.fileid 100 st) _ := FRec.writes _ h.legal2
  have w3 := seqWrite_writes (fun (p : Nat × PhTable) st => phTableWrite p.1 p.2 st)
    (fun p => (phTableRecs p.1 p.2).flatMap FRec.enc) (phSizes.zip d.tables)
    (fun p hp => phTable_writes p.1 p.2 (h.tables p hp) (phSizes_le p.1 (List.of_mem_zip hp).1).2)
  have w4 : Writes (fun st => .ok (fWrite [leBytes 4 d.blocks.length] st)) _ := FRec.writes _ (legal4 _)
  have w5 := seqWrite_writes (fun (b : PhBlock) st => .ok (fWrite [leBytes 8 b.tot, phCounts b] st))
    (fun b => FRec.enc (.vals [leBytes 8 b.tot, phCounts b])) d.blocks (fun b hb => FRec.writes _ (h.blocks b hb).legal)
  have w6 := seqWrite_writes phBlockWrite phBlockEnc d.blocks (fun b hb => phBlock_writes b (h.blocks b hb))
  have := (w1.bind (w2.bind (w3.bind (w4.bind (w5.bind w6))))) ⟨[], 0, 0, false⟩ rfl rfl
  exact this

theorem reads_fixed (s : List Byte) (n : Nat) (hs : s.length = n) (hn : n < 2 ^ 31) :
    Reads (fun st => fReadFixedString [] n st) (FRec.enc (.fstr s n)) s := by
  have l1 : FRec.Legal (.fstr s n) := ⟨by omega, hn⟩
  have r1 := FReq.reads (.fstr s n) (.fstr [] n) l1 rfl
  have v1 : FRec.value (.fstr s n) = [s] := by simp only [FRec.value]; rw [← hs, List.take_length]
  rw [v1] at r1
  intro pre post pp
  have := r1 pre post pp
  simp only [FReq.run] at this
  cases hq : fReadFixedString [] n ⟨pre ++ (FRec.enc (.fstr s n) ++ post), pre.length, pp, false⟩ with
  | ok q =>
    rw [hq] at this
    simp only [Res.ok_bind, Res.pure_eq, Res.ok.injEq, Prod.mk.injEq, List.cons.injEq, and_true] at this
    show fReadFixedString [] n _ = _
    rw [hq]
    obtain ⟨q1, q2⟩ := q
    simp only at this
    rw [this.1, this.2]
  | throws => rw [hq] at this; cases this
  | ub => rw [hq] at this; cases this

theorem phFrom_spec (d : PhDump) (h : PhOk d) : Reads phFromFile (phEnc d) d := by
  have r1 : Reads (fun st => fRead [leBytes 4 0, leBytes 8 0, leBytes 4 0, leBytes 4 0, leBytes 4 0] st) _ _ :=
    FReq.reads _ (.vals [leBytes 4 0, leBytes 8 0, leBytes 4 0, leBytes 4 0, leBytes 4 0]) h.legal1
      (by simp [FMatch, h.l1, h.l2, h.l3, h.lr, h.lv, leBytes_length])
  have r2 := reads_fixed d.fileid 100 h.fid (by decide : (100:Nat) < 2 ^ 31)
  have r3 := mapRead_reads phTableRead (fun p => (phTableRecs p.1 p.2).flatMap FRec.enc) phSizes d.tables
    (by rw [h.eight]; rfl) (fun p hp => phTable_reads p.1 p.2 (h.tables p hp) (phSizes_le p.1 (List.of_mem_zip hp).1).2)
  have r4 : Reads (fun st => fRead [leBytes 4 0] st) _ _ :=
    FReq.reads _ (.vals [leBytes 4 0]) (legal4 d.blocks.length) (by simp [FMatch, leBytes_length])
  have nb : asU32 (([leBytes 4 d.blocks.length] : List (List Byte)).headD []) = d.blocks.length :=
    leVal_leBytes 4 _ (by have := h.nblocks; norm_num; omega)
  have r5 : Reads (seqRead (fun st => fRead [leBytes 8 0, List.replicate 32 0#8] st) d.blocks.length)
      (d.blocks.flatMap (fun b => FRec.enc (.vals [leBytes 8 b.tot, phCounts b])))
      (d.blocks.map (fun b => [leBytes 8 b.tot, phCounts b])) := by
    have := seqRead_reads (fun st => fRead [leBytes 8 0, List.replicate 32 0#8] st) (fun v => FRec.enc (.vals v))
      (d.blocks.map (fun b => [leBytes 8 b.tot, phCounts b])) (by
        intro v hv
        obtain ⟨b, hb, rfl⟩ := List.mem_map.1 hv
        exact FReq.reads _ (.vals [leBytes 8 0, List.replicate 32 0#8]) (h.blocks b hb).legal
          (by simp [FMatch, leBytes_length, phCounts_length b (h.blocks b hb).eight]))
    rw [List.length_map, List.flatMap_map] at this
    exact this
  have r6 : Reads (mapRead (fun (x : List (List Byte)) st => phBlockRead (leVal (x.getD 0 [])) (u32sOf (x.getD 1 [])) st)
      (d.blocks.map (fun b => [leBytes 8 b.tot, phCounts b]))) (d.blocks.flatMap phBlockEnc) d.blocks := by
    intro pre post pp
    rw [mapRead_map]
    have e1 : d.blocks.zip d.blocks = d.blocks.map (fun b => (b, b)) := by
      have gen : ∀ l : List PhBlock, l.zip l = l.map (fun b => (b, b)) := by
        intro l
        induction l with
        | nil => rfl
        | cons a r ih => simp [ih]
      exact gen _
    have := mapRead_reads (fun (b : PhBlock) st => phBlockRead (leVal (([leBytes 8 b.tot, phCounts b] : List (List Byte)).getD 0 []))
        (u32sOf (([leBytes 8 b.tot, phCounts b] : List (List Byte)).getD 1 [])) st) (fun q => phBlockEnc q.1) d.blocks d.blocks rfl (by
      intro q hq
      rw [e1] at hq
      obtain ⟨b, hb, rfl⟩ := List.mem_map.1 hq
      have hbo := h.blocks b hb
      have t1 : leVal (([leBytes 8 b.tot, phCounts b] : List (List Byte)).getD 0 []) = b.tot :=
        leVal_leBytes 8 _ (by have := hbo.small; norm_num; omega)
      have t2 : u32sOf (([leBytes 8 b.tot, phCounts b] : List (List Byte)).getD 1 []) = b.arrays.map List.length :=
        u32sOf_counts _ hbo.count
      simp only [t1, t2]
      exact phBlock_reads b hbo)
    rw [e1, List.flatMap_map] at this
    exact this pre post pp
  have hmag : (⟨d.i1, d.r1, d.i2, d.iversion, d.i3, [], [], []⟩ : PhDump).magicOk = true := by
    simp only [PhDump.magicOk]
    rw [h.l1, h.l2, h.l3, h.lr]
    decide
  have step6 := r6.map (fun blocks => (⟨d.i1, d.r1, d.i2, d.iversion, d.i3, d.fileid, d.tables, blocks⟩ : PhDump))
  have step5 := r5.bind (g := fun heads st => mapRead (fun (x : List (List Byte)) st => phBlockRead (leVal (x.getD 0 []))
    (u32sOf (x.getD 1 [])) st) heads st >>= fun y => Res.ok ((⟨d.i1, d.r1, d.i2, d.iversion, d.i3, d.fileid, d.tables, y.1⟩ : PhDump), y.2))
    step6
  rw [← nb] at step5
  have step4 := r4.bind (g := fun n st => seqRead (fun st => fRead [leBytes 8 0, List.replicate 32 0#8] st) (asU32 (n.headD [])) st >>=
    fun z => mapRead (fun (x : List (List Byte)) st => phBlockRead (leVal (x.getD 0 []))
    (u32sOf (x.getD 1 [])) st) z.1 z.2 >>= fun y => Res.ok ((⟨d.i1, d.r1, d.i2, d.iversion, d.i3, d.fileid, d.tables, y.1⟩ : PhDump), y.2))
    step5
  have step3 := r3.bind (g := fun tables st => fRead [leBytes 4 0] st >>= fun n =>
    seqRead (fun st => fRead [leBytes 8 0, List.replicate 32 0#8] st) (asU32 (n.1.headD [])) n.2 >>=
    fun z => mapRead (fun (x : List (List Byte)) st => phBlockRead (leVal (x.getD 0 []))
    (u32sOf (x.getD 1 [])) st) z.1 z.2 >>= fun y => Res.ok ((⟨d.i1, d.r1, d.i2, d.iversion, d.i3, d.fileid, tables, y.1⟩ : PhDump), y.2))
    step4
  have step2 := r2.bind (g := fun fid st => mapRead phTableRead phSizes st >>= fun tb => fRead [leBytes 4 0] tb.2 >>= fun n =>
    seqRead (fun st => fRead [leBytes 8 0, List.replicate 32 0#8] st) (asU32 (n.1.headD [])) n.2 >>=
    fun z => mapRead (fun (x : List (List Byte)) st => phBlockRead (leVal (x.getD 0 []))
    (u32sOf (x.getD 1 [])) st) z.1 z.2 >>= fun y => Res.ok ((⟨d.i1, d.r1, d.i2, d.iversion, d.i3, fid, tb.1, y.1⟩ : PhDump), y.2))
    step3
  refine r1.bind (g := fun m st => if PhDump.magicOk ⟨m.getD 0 [], m.getD 1 [], m.getD 2 [], m.getD 3 [], m.getD 4 [], [], [], []⟩ = false
    then .throws else fReadFixedString [] 100 st >>= fun fid => mapRead phTableRead phSizes fid.2 >>= fun tb => fRead [leBytes 4 0] tb.2 >>= fun n =>
    seqRead (fun st => fRead [leBytes 8 0, List.replicate 32 0#8] st) (asU32 (n.1.headD [])) n.2 >>=
    fun z => mapRead (fun (x : List (List Byte)) st => phBlockRead (leVal (x.getD 0 []))
    (u32sOf (x.getD 1 [])) st) z.1 z.2 >>= fun y => Res.ok ((⟨m.getD 0 [], m.getD 1 [], m.getD 2 [], m.getD 3 [], m.getD 4 [], fid.1, tb.1, y.1⟩ : PhDump), y.2)) ?_
  simp only [FRec.value]
  intro pre post pp
  show (if PhDump.magicOk ⟨d.i1, d.r1, d.i2, d.iversion, d.i3, [], [], []⟩ = false then Res.throws else _) = _
  rw [hmag, if_neg (by simp)]
  exact step2 pre post pp

/-! ### Statements -/

/-- **C48, round trip.** A legal dump of any contents (any tables, any number of blocks, arrays and particles below the record
limit) is written without error, and reading the file back gives the same dump and reaches exactly the end of the file. -/
theorem C48_dump_roundtrip (d : PhDump) (h : PhOk d) :
    ∃ st, d.genFile = .ok st ∧ ∃ st', phFromFile (fOpen st.buf).1 = .ok (d, st') ∧ fFinishedRead st' (fOpen st.buf).2 = true := by
  refine ⟨_, phGen_spec d h, ?_⟩
  have := phFrom_spec d h [] [] (phEnc d).length
  refine ⟨⟨phEnc d, (phEnc d).length, (phEnc d).length, false⟩, ?_, ?_⟩
  · simp only [Strm.app, fOpen, List.nil_append]
    simpa using this
  · simp [fFinishedRead, fOpen, Strm.app]

/-- **C48, foreign files.** A file whose first record has the right size but not the magic numbers is rejected with an exception. -/
theorem C48_bad_magic_throws (a r b v c post : List Byte) (h1 : a.length = 4) (h2 : r.length = 8) (h3 : b.length = 4)
    (h4 : v.length = 4) (h5 : c.length = 4)
    (hne : ¬ (a = leBytes 4 60769 ∧ b = leBytes 4 60878 ∧ c = leBytes 4 690706 ∧ r = leBytes 8 0x40EDB9C000000000)) :
    phFromFile (fOpen (leBytes 4 24 ++ ((a ++ (r ++ (b ++ (v ++ c)))) ++ (leBytes 4 24 ++ post)))).1 = .throws := by
  have hl : FRec.Legal (.vals [a, r, b, v, c]) := by simp [FRec.Legal, sizesSum, h1, h2, h3, h4, h5]
  have he : FRec.enc (.vals [a, r, b, v, c]) = leBytes 4 24 ++ ((a ++ (r ++ (b ++ (v ++ c)))) ++ leBytes 4 24) := by
    simp only [FRec.enc, FRec.value, sizesSum]
    simp [h1, h2, h3, h4, h5]
  have hr := FReq.reads (.vals [a, r, b, v, c]) (.vals [leBytes 4 0, leBytes 8 0, leBytes 4 0, leBytes 4 0, leBytes 4 0]) hl
    (by simp [FMatch, leBytes_length, h1, h2, h3, h4, h5])
    [] post (leBytes 4 24 ++ ((a ++ (r ++ (b ++ (v ++ c)))) ++ (leBytes 4 24 ++ post))).length
  obtain ⟨st', hr'⟩ : ∃ st', fRead [leBytes 4 0, leBytes 8 0, leBytes 4 0, leBytes 4 0, leBytes 4 0]
      (fOpen (leBytes 4 24 ++ ((a ++ (r ++ (b ++ (v ++ c)))) ++ (leBytes 4 24 ++ post)))).1 = .ok ([a, r, b, v, c], st') := by
    rw [he] at hr
    simp only [List.nil_append, List.length_nil, List.append_assoc, FReq.run] at hr
    simp only [fOpen, List.append_assoc]
    exact ⟨_, hr⟩
  unfold phFromFile
  rw [hr']
  simp only [Res.ok_bind, FRec.value]
  show (if PhDump.magicOk ⟨a, r, b, v, c, [], [], []⟩ = false then Res.throws else _) = _
  rw [if_pos]
  by_contra hc
  simp only [PhDump.magicOk, Bool.not_eq_false, Bool.and_eq_true, beq_iff_eq] at hc
  apply hne
  refine ⟨?_, ?_, ?_, ?_⟩
  · rw [← leBytes_leVal a, h1, hc.1.1.1]
  · rw [← leBytes_leVal b, h3, hc.1.1.2]
  · rw [← leBytes_leVal c, h5, hc.1.2]
  · rw [← leBytes_leVal r, h2, hc.2]

/-- **C48, header entries.** `fetch` returns the last value stored under the key, and `nothing` exactly when the key is absent. -/
theorem C48_fetch_last (t : PhTable) (key : List Byte) :
    (phTableFetch t key = none ↔ ∀ e ∈ t, e.1 ≠ key) ∧
    ∀ v, phTableFetch t key = some v ↔ ∃ t1 t2, t = t1 ++ (key, v) :: t2 ∧ ∀ e ∈ t2, e.1 ≠ key := by
  have gen : ∀ (t : PhTable) (init : Option (List Byte)),
      t.foldl (fun ret e => if e.1 = key then some e.2 else ret) init =
        if ∃ e ∈ t, e.1 = key then phTableFetch t key else init := by
    intro t
    induction t with
    | nil => intro init; simp
    | cons a r ih =>
      intro init
      unfold phTableFetch
      rw [List.foldl_cons, List.foldl_cons, ih, ih]
      by_cases hr : ∃ e ∈ r, e.1 = key
      · rw [if_pos hr, if_pos hr, if_pos (by obtain ⟨e, he, h⟩ := hr; exact ⟨e, List.mem_cons_of_mem _ he, h⟩)]
      · rw [if_neg hr, if_neg hr]
        by_cases ha : a.1 = key
        · rw [if_pos ha, if_pos ⟨a, List.mem_cons_self, ha⟩, if_pos ha]
        · rw [if_neg ha, if_neg]
          rintro ⟨e, he, h⟩
          rcases List.mem_cons.1 he with rfl | he
          · exact ha h
          · exact hr ⟨e, he, h⟩
  have cons_eq : ∀ (a : List Byte × List Byte) (r : PhTable), phTableFetch (a :: r) key =
      if ∃ e ∈ r, e.1 = key then phTableFetch r key else if a.1 = key then some a.2 else none := by
    intro a r
    conv => lhs; unfold phTableFetch
    rw [List.foldl_cons, gen]
  induction t with
  | nil => exact ⟨by simp [phTableFetch], by simp [phTableFetch]⟩
  | cons a r ih =>
    obtain ⟨ih1, ih2⟩ := ih
    rw [cons_eq]
    by_cases hr : ∃ e ∈ r, e.1 = key
    · rw [if_pos hr]
      obtain ⟨e, he, hk⟩ := hr
      refine ⟨?_, ?_⟩
      · constructor
        · intro h; exact absurd hk ((ih1.1 h) e he)
        · intro h; exact absurd hk (h e (List.mem_cons_of_mem _ he))
      · intro v
        rw [ih2 v]
        constructor
        · rintro ⟨t1, t2, h1, h2⟩; exact ⟨a :: t1, t2, by rw [h1]; rfl, h2⟩
        · rintro ⟨t1, t2, h1, h2⟩
          cases t1 with
          | nil =>
            simp only [List.nil_append, List.cons.injEq] at h1
            exact absurd hk (h2 e (h1.2 ▸ he))
          | cons b t1 =>
            simp only [List.cons_append, List.cons.injEq] at h1
            exact ⟨t1, t2, h1.2, h2⟩
    · rw [if_neg hr]
      push Not at hr
      by_cases ha : a.1 = key
      · rw [if_pos ha]
        refine ⟨⟨fun h => (by cases h), fun h => absurd ha (h a List.mem_cons_self)⟩, ?_⟩
        intro v
        constructor
        · intro h; injection h with h
          exact ⟨[], r, by rw [← h, ← ha]; rfl, hr⟩
        · rintro ⟨t1, t2, h1, h2⟩
          cases t1 with
          | nil => simp only [List.nil_append, List.cons.injEq] at h1; rw [h1.1]
          | cons b t1 =>
            simp only [List.cons_append, List.cons.injEq] at h1
            exact absurd rfl (hr (key, v) (by rw [h1.2]; simp))
      · rw [if_neg ha]
        refine ⟨⟨fun _ e he => ?_, fun _ => rfl⟩, ?_⟩
        · rcases List.mem_cons.1 he with rfl | he
          · exact ha
          · exact hr e he
        · intro v
          constructor
          · intro h; cases h
          · rintro ⟨t1, t2, h1, h2⟩
            have : (key, v) ∈ a :: r := by rw [h1]; simp
            rcases List.mem_cons.1 this with h | h
            · exact absurd (by rw [← h]) ha
            · exact absurd rfl (hr _ h)

/-- **C48, defect.** A tag longer than 16 characters is kept whole in memory but cut in the file: after a round trip the entry
cannot be found under the name it was added with. -/
theorem C48_long_tag_defect :
    let key : List Byte := List.replicate 17 65#8
    let t := phTableAdd [] key [1#8]
    phTableFetch t (phTag key) = some [1#8] ∧
    ∃ st, phTableWrite 1 t ⟨[], 0, 0, false⟩ = .ok st ∧ ∃ t' st', phTableRead 1 (fOpen st.buf).1 = .ok (t', st') ∧
      phTableFetch t' (phTag key) = none := by
  refine ⟨by decide +kernel, ((phTableWrite 1 (phTableAdd [] (List.replicate 17 65#8) [1#8]) ⟨[], 0, 0, false⟩).bind
    (fun s => .ok s) |> fun r => match r with | .ok s => s | _ => ⟨[], 0, 0, true⟩), by decide +kernel, [(List.replicate 16 65#8, [1#8])], ?_⟩
  refine ⟨⟨?_, 45, 45, false⟩, ?_, by decide +kernel⟩
  · exact (match phTableWrite 1 (phTableAdd [] (List.replicate 17 65#8) [1#8]) ⟨[], 0, 0, false⟩ with | .ok s => s.buf | _ => [])
  · decide +kernel

/-! Concrete dump: two tables, one block with a real and an i8 array. -/
def phEx : PhDump :=
  PhDump.overrideMagic ⟨[], [], [], leBytes 4 1, [], List.replicate 100 65#8,
    [[(phTag [110#8], leBytes 4 2), (phTag [109#8], leBytes 4 7)], [], [], [], [], [(phTag [116#8], leBytes 8 5)], [], []],
    [⟨2, [[], [⟨phTag [98#8], [[1#8], [2#8]]⟩], [], [], [], [⟨phTag [120#8], [leBytes 8 1, leBytes 8 2]⟩], [], []]⟩, ⟨0, [[], [], [], [], [], [], [], []]⟩]⟩

example : PhOk phEx := by
  refine ⟨rfl, rfl, rfl, rfl, rfl, by decide +kernel, rfl, ?_, by decide, ?_⟩
  · intro p hp
    have : ∀ q ∈ phSizes.zip phEx.tables, (∀ e ∈ q.2, e.1.length = 16) ∧ (∀ e ∈ q.2, e.2.length = q.1) ∧ 16 * q.2.length < 2 ^ 31 := by
      decide +kernel
    exact ⟨(this p hp).1, (this p hp).2.1, (this p hp).2.2⟩
  · intro b hb
    have : ∀ b ∈ phEx.blocks, b.arrays.length = 8 ∧ (∀ as ∈ b.arrays, as.length < 2 ^ 31) ∧ 8 * b.tot < 2 ^ 31 ∧
        ∀ p ∈ phSizes.zip b.arrays, ∀ a ∈ p.2, a.tag.length = 16 ∧ a.vals.length = b.tot ∧ ∀ v ∈ a.vals, v.length = p.1 := by
      decide +kernel
    exact ⟨(this b hb).1, (this b hb).2.1, (this b hb).2.2.1, (this b hb).2.2.2⟩

example : (phEx.genFile >>= fun st => phFromFile (fOpen st.buf).1 >>= fun r => pure (r.1, fFinishedRead r.2 (fOpen st.buf).2)) =
    .ok (phEx, true) := by decide +kernel

end Shamrock
