import Verif.Model.ByteStream
import Mathlib.Data.List.Basic
import Mathlib.Tactic.Ring
/-! C18: byte stream round trip. -/
namespace Shamrock

theorem leBytes_length (n v : Nat) : (leBytes n v).length = n := by
  induction n generalizing v with
  | zero => rfl
  | succ n ih => simp [leBytes, ih]

theorem leVal_leBytes (n v : Nat) (h : v < 256 ^ n) : leVal (leBytes n v) = v := by
  induction n generalizing v with
  | zero => simp at h; simp [leBytes, leVal, h]
  | succ n ih =>
    simp only [leBytes, leVal]
    rw [ih (v / 256) (by rw [Nat.div_lt_iff_lt_mul (by norm_num)]; rw [pow_succ] at h; exact h)]
    simp only [BitVec.toNat_ofNat]
    omega

theorem leVal_lt (l : List Byte) : leVal l < 256 ^ l.length := by
  induction l with
  | nil => simp [leVal]
  | cons b r ih =>
    simp only [leVal, List.length_cons, pow_succ]
    have := b.isLt
    omega

theorem leBytes_leVal (l : List Byte) : leBytes l.length (leVal l) = l := by
  induction l with
  | nil => rfl
  | cons b r ih =>
    simp only [List.length_cons, leBytes, leVal]
    have hb := b.isLt
    have h1 : (b.toNat + 256 * leVal r) / 256 = leVal r := by omega
    rw [h1, ih]
    congr 1
    apply BitVec.eq_of_toNat_eq
    simp only [BitVec.toNat_ofNat]
    omega

theorem Strm.write_end (st : Strm) (bs : List Byte) (hb : st.bad = false) (hp : st.ppos = st.buf.length) :
    st.write bs = { st with buf := st.buf ++ bs, ppos := (st.buf ++ bs).length } := by
  unfold Strm.write
  rw [if_neg (by simp [hb]), hp]
  simp

theorem Strm.read_mid (pre bs post : List Byte) (pp : Nat) :
    (Strm.mk (pre ++ (bs ++ post)) pre.length pp false).read bs.length =
      (bs, Strm.mk (pre ++ (bs ++ post)) (pre.length + bs.length) pp false) := by
  unfold Strm.read
  simp

/-- The bytes produced for a value (used only in proofs and in the layout theorem). -/
def Sch.enc : (s : Sch) → s.V → List Byte
  | .raw _, v => v.1
  | .str, v => leBytes 8 (List.length (α := Byte) v) ++ (id v : List Byte)
  | .tvec n, v => leBytes 4 vectorFlag ++ (leBytes 8 (List.length (α := Obj n) v) ++ bytesOf (n := n) v)
  | .vec s, v => leBytes 4 vectorFlag ++ (leBytes 8 (List.length (α := s.V) v) ++ List.flatMap s.enc v)
  | .pair a b, v => a.enc v.1 ++ b.enc v.2

/-- Stream after appending bytes. -/
def Strm.app (st : Strm) (bs : List Byte) : Strm := { st with buf := st.buf ++ bs, ppos := (st.buf ++ bs).length }

theorem Strm.app_ok (st : Strm) (bs : List Byte) (hb : st.bad = false) :
    (st.app bs).bad = false ∧ (st.app bs).ppos = (st.app bs).buf.length := ⟨hb, rfl⟩

theorem Strm.app_app (st : Strm) (a b : List Byte) : (st.app a).app b = st.app (a ++ b) := by
  simp [Strm.app, List.append_assoc]

theorem Strm.write_app (st : Strm) (bs : List Byte) (hb : st.bad = false) (hp : st.ppos = st.buf.length) :
    st.write bs = st.app bs := Strm.write_end st bs hb hp

theorem streamWriteString_app (st : Strm) (v : List Byte) (hb : st.bad = false) (hp : st.ppos = st.buf.length) :
    streamWriteString st v = st.app (leBytes 8 v.length ++ v) := by
  unfold streamWriteString streamWrite
  rw [Strm.write_app st _ hb hp, Strm.write_app (st.app _) _ hb rfl, Strm.app_app]

theorem streamWriteVectorTrivial_app {n : Nat} (st : Strm) (v : List (Obj n)) (hb : st.bad = false)
    (hp : st.ppos = st.buf.length) :
    streamWriteVectorTrivial st v = st.app (leBytes 4 vectorFlag ++ (leBytes 8 v.length ++ bytesOf v)) := by
  unfold streamWriteVectorTrivial streamWrite
  rw [Strm.write_app st _ hb hp, Strm.write_app (st.app _) _ hb rfl, Strm.app_app, Strm.write_app (st.app _) _ hb rfl,
    Strm.app_app, List.append_assoc]

theorem streamWriteVector_app {T : Type} (ser : Strm → T → Strm) (enc : T → List Byte)
    (hser : ∀ x st, st.bad = false → st.ppos = st.buf.length → ser st x = st.app (enc x)) (st : Strm) (v : List T)
    (hb : st.bad = false) (hp : st.ppos = st.buf.length) :
    streamWriteVector ser st v = st.app (leBytes 4 vectorFlag ++ (leBytes 8 v.length ++ v.flatMap enc)) := by
  have hf : ∀ (l : List T) (st : Strm), st.bad = false → st.ppos = st.buf.length →
      l.foldl ser st = st.app (l.flatMap enc) := by
    intro l
    induction l with
    | nil => intro st hb hp; simp [Strm.app, ← hp]
    | cons x r ih =>
      intro st hb hp
      rw [List.foldl_cons, hser x st hb hp, ih (st.app _) hb rfl, Strm.app_app, List.flatMap_cons]
  unfold streamWriteVector streamWrite
  rw [Strm.write_app st _ hb hp, Strm.write_app (st.app _) _ hb rfl, Strm.app_app, hf _ (st.app _) hb rfl, Strm.app_app,
    List.append_assoc]

theorem Sch.write_enc : (s : Sch) → (v : s.V) → (st : Strm) → st.bad = false → st.ppos = st.buf.length →
    s.write st v = st.app (s.enc v)
  | .raw _, v, st, hb, hp => Strm.write_app st v.1 hb hp
  | .str, v, st, hb, hp => streamWriteString_app st v hb hp
  | .tvec n, v, st, hb, hp => streamWriteVectorTrivial_app (n := n) st v hb hp
  | .vec s, v, st, hb, hp => streamWriteVector_app s.write s.enc (fun x st h1 h2 => Sch.write_enc s x st h1 h2) st v hb hp
  | .pair a b, (v, w), st, hb, hp => by
    show b.write (a.write st v) w = st.app (a.enc v ++ b.enc w)
    rw [Sch.write_enc a v st hb hp, Sch.write_enc b w (st.app _) hb rfl, Strm.app_app]

theorem streamReadLocal_mid (pre bs post : List Byte) (pp n : Nat) (hn : bs.length = n) :
    streamReadLocal (Strm.mk (pre ++ (bs ++ post)) pre.length pp false) n =
      .ok (bs, Strm.mk (pre ++ (bs ++ post)) (pre ++ bs).length pp false) := by
  subst hn
  unfold streamReadLocal
  rw [Strm.read_mid]
  simp

theorem streamRead_mid (pre bs post old : List Byte) (pp : Nat) (hn : old.length = bs.length) :
    streamRead (Strm.mk (pre ++ (bs ++ post)) pre.length pp false) old =
      (bs, Strm.mk (pre ++ (bs ++ post)) (pre ++ bs).length pp false) := by
  unfold streamRead
  rw [hn, Strm.read_mid]
  simp [hn.symm]

theorem resizeBytes_ok (old : List Byte) (n : Nat) (h : n < 2 ^ 63) : ∃ m, resizeBytes old n = .ok m ∧ m.length = n := by
  refine ⟨_, if_pos h, ?_⟩
  simp only [List.length_append, List.length_take, List.length_replicate]
  omega

theorem objsOf_bytesOf {n : Nat} (v : List (Obj n)) : objsOf n v.length (bytesOf v) = v := by
  induction v with
  | nil => rfl
  | cons x r ih =>
    obtain ⟨x, hx⟩ := x
    have e : bytesOf (⟨x, hx⟩ :: r) = x ++ bytesOf r := by simp [bytesOf]
    simp only [List.length_cons, objsOf, e]
    have d : (x ++ bytesOf r).drop n = bytesOf r := List.drop_left' hx
    rw [d, ih]
    congr 1
    apply Subtype.ext
    simp [← hx]

theorem bytesOf_length {n : Nat} (v : List (Obj n)) : (bytesOf v).length = v.length * n := by
  induction v with
  | nil => simp [bytesOf]
  | cons x r ih =>
    have e : bytesOf (x :: r) = x.1 ++ bytesOf r := by simp [bytesOf]
    rw [e, List.length_append, ih, x.2, List.length_cons]; ring

theorem streamRead_flag (pre post : List Byte) (pp : Nat) (len : Nat) (hl : len < 2 ^ 64) :
    ∃ f l st1, streamReadLocal (Strm.mk (pre ++ (leBytes 4 vectorFlag ++ (leBytes 8 len ++ post))) pre.length pp false) 4 =
      .ok (f, st1) ∧ leVal f = vectorFlag ∧ streamReadLocal st1 8 = .ok (l, Strm.mk (pre ++ (leBytes 4 vectorFlag ++
        (leBytes 8 len ++ post))) (pre ++ (leBytes 4 vectorFlag ++ leBytes 8 len)).length pp false) ∧ leVal l = len := by
  refine ⟨_, _, _, streamReadLocal_mid pre _ _ pp 4 (leBytes_length _ _), leVal_leBytes _ _ (by decide), ?_,
    leVal_leBytes 8 len (by norm_num; norm_num at hl; exact hl)⟩
  have e : pre ++ (leBytes 4 vectorFlag ++ (leBytes 8 len ++ post)) = (pre ++ leBytes 4 vectorFlag) ++ (leBytes 8 len ++ post) := by
    simp
  rw [e, streamReadLocal_mid _ _ _ pp 8 (leBytes_length _ _)]
  simp

theorem Sch.read_raw (n : Nat) (v : List Byte) (hv : v.length = n) (pre post : List Byte) (pp : Nat) :
    Sch.read (.raw n) (Strm.mk (pre ++ (v ++ post)) pre.length pp false) =
      .ok ((⟨v, hv⟩ : Obj n), Strm.mk (pre ++ (v ++ post)) (pre ++ v).length pp false) := by
  have h := Strm.read_mid pre v post pp
  rw [hv] at h
  unfold Sch.read
  simp only [h]
  rw [dif_pos hv]
  simp [hv]

theorem streamReadString_mid (v : List Byte) (hf : v.length < 2 ^ 63) (pre post : List Byte) (pp : Nat) :
    streamReadString (Strm.mk (pre ++ ((leBytes 8 v.length ++ v) ++ post)) pre.length pp false) [] =
      .ok (v, Strm.mk (pre ++ ((leBytes 8 v.length ++ v) ++ post)) (pre ++ (leBytes 8 v.length ++ v)).length pp false) := by
  unfold streamReadString
  rw [List.append_assoc, streamReadLocal_mid pre _ _ pp 8 (leBytes_length _ _)]
  simp only [Res.ok_bind]
  rw [leVal_leBytes 8 _ (by norm_num; omega)]
  obtain ⟨m, e1, e2⟩ := resizeBytes_ok [] _ hf
  rw [e1]
  simp only [Res.ok_bind, Res.pure_eq]
  have e : pre ++ (leBytes 8 (List.length v) ++ (v ++ post)) = (pre ++ leBytes 8 (List.length v)) ++ (v ++ post) := by simp
  rw [e, streamRead_mid _ _ _ _ pp e2]
  simp

theorem streamReadVectorTrivial_mid {n : Nat} (v : List (Obj n)) (h1 : v.length < 2 ^ 63) (h2 : v.length * n < 2 ^ 63)
    (pre post : List Byte) (pp : Nat) :
    streamReadVectorTrivial (Strm.mk (pre ++ ((leBytes 4 vectorFlag ++ (leBytes 8 v.length ++ bytesOf v)) ++ post)) pre.length pp
      false) [] = .ok (v, Strm.mk (pre ++ ((leBytes 4 vectorFlag ++ (leBytes 8 v.length ++ bytesOf v)) ++ post))
        (pre ++ (leBytes 4 vectorFlag ++ (leBytes 8 v.length ++ bytesOf v))).length pp false) := by
  unfold streamReadVectorTrivial
  obtain ⟨f, l, st1, a1, a2, a3, a4⟩ := streamRead_flag pre (bytesOf v ++ post) pp v.length (by omega)
  simp only [List.append_assoc]
  rw [a1]; simp only [Res.ok_bind]
  rw [if_neg (by simp [a2]), a3]; simp only [Res.ok_bind]
  obtain ⟨m, e1, e2⟩ := resizeBytes_ok (bytesOf ([] : List (Obj n))) (v.length * n) h2
  rw [a4, e1]
  simp only [Res.ok_bind, Res.pure_eq]
  have e : pre ++ (leBytes 4 vectorFlag ++ (leBytes 8 v.length ++ (bytesOf v ++ post))) =
    (pre ++ (leBytes 4 vectorFlag ++ leBytes 8 v.length)) ++ (bytesOf v ++ post) := by simp
  rw [e, streamRead_mid _ _ _ _ pp (by rw [e2, bytesOf_length])]
  simp only [objsOf_bytesOf]
  simp

theorem streamReadVector_mid {T : Type} (deser : Strm → Res (T × Strm)) (enc : T → List Byte) (v : List T)
    (h1 : v.length < 2 ^ 63) (pp : Nat)
    (hd : ∀ x ∈ v, ∀ pre post, deser (Strm.mk (pre ++ (enc x ++ post)) pre.length pp false) =
      .ok (x, Strm.mk (pre ++ (enc x ++ post)) (pre ++ enc x).length pp false)) (pre post : List Byte) (old : List T) :
    streamReadVector deser (Strm.mk (pre ++ ((leBytes 4 vectorFlag ++ (leBytes 8 v.length ++ v.flatMap enc)) ++ post)) pre.length
      pp false) old = .ok (old ++ v, Strm.mk (pre ++ ((leBytes 4 vectorFlag ++ (leBytes 8 v.length ++ v.flatMap enc)) ++ post))
        (pre ++ (leBytes 4 vectorFlag ++ (leBytes 8 v.length ++ v.flatMap enc))).length pp false) := by
  have hloop : ∀ (w : List T) (pre : List Byte) (acc : List T), (∀ x ∈ w, x ∈ v) →
      pushBackLoop deser w.length (Strm.mk (pre ++ (w.flatMap enc ++ post)) pre.length pp false) acc =
        .ok (acc ++ w, Strm.mk (pre ++ (w.flatMap enc ++ post)) (pre ++ w.flatMap enc).length pp false) := by
    intro w
    induction w with
    | nil => intro pre acc _; simp [pushBackLoop]
    | cons x r ih =>
      intro pre acc hw
      simp only [List.length_cons, pushBackLoop, List.flatMap_cons, List.append_assoc]
      rw [hd x (hw x List.mem_cons_self) pre]
      simp only [Res.ok_bind]
      have e : pre ++ (enc x ++ (r.flatMap enc ++ post)) = (pre ++ enc x) ++ (r.flatMap enc ++ post) := by simp
      rw [e, ih (pre ++ enc x) (acc ++ [x]) (fun y hy => hw y (List.mem_cons_of_mem _ hy))]
      simp
  unfold streamReadVector
  obtain ⟨f, l, st1, a1, a2, a3, a4⟩ := streamRead_flag pre (v.flatMap enc ++ post) pp v.length (by omega)
  simp only [List.append_assoc]
  rw [a1]; simp only [Res.ok_bind]
  rw [if_neg (by simp [a2]), a3]; simp only [Res.ok_bind]
  have e : pre ++ (leBytes 4 vectorFlag ++ (leBytes 8 v.length ++ (v.flatMap enc ++ post))) =
    (pre ++ (leBytes 4 vectorFlag ++ leBytes 8 v.length)) ++ (v.flatMap enc ++ post) := by simp
  rw [a4, e, hloop v _ old (fun _ h => h)]
  simp

theorem Sch.read_enc : (s : Sch) → (v : s.V) → s.Fits v → (pre post : List Byte) → (pp : Nat) →
    s.read (Strm.mk (pre ++ (s.enc v ++ post)) pre.length pp false) =
      .ok (v, Strm.mk (pre ++ (s.enc v ++ post)) (pre ++ s.enc v).length pp false)
  | .raw n, v, _, pre, post, pp => Sch.read_raw n v.1 v.2 pre post pp
  | .str, v, hf, pre, post, pp => streamReadString_mid v hf pre post pp
  | .tvec n, v, hf, pre, post, pp => streamReadVectorTrivial_mid (n := n) v hf.1 hf.2 pre post pp
  | .vec s, v, hf, pre, post, pp =>
    streamReadVector_mid s.read s.enc v hf.1 pp (fun x hx pre post => Sch.read_enc s x (hf.2 x hx) pre post pp) pre post []
  | .pair a b, (v, w), hf, pre, post, pp => by
    have h1 := Sch.read_enc a v hf.1 pre (b.enc w ++ post) pp
    have h2 := Sch.read_enc b w hf.2 (pre ++ a.enc v) post pp
    show (a.read (Strm.mk (pre ++ ((a.enc v ++ b.enc w) ++ post)) pre.length pp false) >>= fun x => b.read x.2 >>= fun y =>
      Res.ok ((x.1, y.1), y.2)) = Res.ok ((v, w), Strm.mk (pre ++ ((a.enc v ++ b.enc w) ++ post)) _ pp false)
    have e : pre ++ ((a.enc v ++ b.enc w) ++ post) = pre ++ (a.enc v ++ (b.enc w ++ post)) := by simp
    have e' : pre ++ (a.enc v ++ (b.enc w ++ post)) = (pre ++ a.enc v) ++ (b.enc w ++ post) := by simp
    rw [e, h1]
    simp only [Res.ok_bind]
    rw [e', h2]
    show Res.ok ((v, w), _) = Res.ok ((v, w), Strm.mk _ (pre ++ (a.enc v ++ b.enc w)).length pp false)
    rw [List.append_assoc pre (a.enc v) (b.enc w)]

/-! ### Statements -/

/-- A user action on a byte stream. -/
inductive BsOp where
  | w (s : Sch) (v : s.V)
  | r (s : Sch)

/-- What the actions do to the stream, with the values read, in order. -/
def bsRun : List BsOp → Strm → Res (List (Σ s : Sch, s.V) × Strm)
  | [], st => .ok ([], st)
  | .w s v :: ops, st => bsRun ops (s.write st v)
  | .r s :: ops, st => do
    let (v, st) ← s.read st
    let (out, st) ← bsRun ops st
    pure (⟨s, v⟩ :: out, st)

/-- Specification: a first-in first-out queue of typed values. A read must ask for the type of the oldest unread value. -/
def bsSpec : List BsOp → List (Σ s : Sch, s.V) → Option (List (Σ s : Sch, s.V))
  | [], _ => some []
  | .w s v :: ops, q => bsSpec ops (q ++ [⟨s, v⟩])
  | .r s :: ops, q =>
    match q with
    | [] => none
    | x :: q' => if x.1 = s then (bsSpec ops q').map (x :: ·) else none

/-- Every value written is small enough to exist in memory. -/
def BsFits (ops : List BsOp) : Prop := ∀ s v, BsOp.w s v ∈ ops → s.Fits v

theorem bsRun_spec (ops : List BsOp) : ∀ (q out : List (Σ s : Sch, s.V)) (pre : List Byte),
    BsFits ops → (∀ x ∈ q, x.1.Fits x.2) → bsSpec ops q = some out →
    ∃ st', bsRun ops (Strm.mk (pre ++ q.flatMap (fun x => x.1.enc x.2)) pre.length
      (pre ++ q.flatMap (fun x => x.1.enc x.2)).length false) = .ok (out, st') ∧
      ∃ more, st'.buf = pre ++ q.flatMap (fun x => x.1.enc x.2) ++ more := by
  induction ops with
  | nil =>
    intro q out pre _ _ h
    simp only [bsSpec, Option.some.injEq] at h
    subst h
    exact ⟨_, rfl, [], by simp⟩
  | cons o ops ih =>
    intro q out pre hf hq h
    have hf' : BsFits ops := fun s v hm => hf s v (List.mem_cons_of_mem _ hm)
    cases o with
    | w s v =>
      simp only [bsSpec] at h
      have hq' : ∀ x ∈ q ++ [(⟨s, v⟩ : Σ s : Sch, s.V)], x.1.Fits x.2 := by
        intro x hx
        rcases List.mem_append.1 hx with hx | hx
        · exact hq x hx
        · rw [List.mem_singleton.1 hx]; exact hf s v List.mem_cons_self
      obtain ⟨st', h1, more, h2⟩ := ih (q ++ [⟨s, v⟩]) out pre hf' hq' h
      refine ⟨st', ?_, s.enc v ++ more, by rw [h2]; simp⟩
      simp only [bsRun]
      rw [Sch.write_enc s v _ rfl rfl]
      rw [← h1]
      simp [Strm.app]
    | r s =>
      cases q with
      | nil => simp [bsSpec] at h
      | cons x q' =>
        simp only [bsSpec] at h
        split at h
        · rename_i hs
          obtain ⟨t, v⟩ := x
          simp only at hs
          subst hs
          cases ho : bsSpec ops q' with
          | none => rw [ho] at h; simp at h
          | some out' =>
            rw [ho] at h
            simp only [Option.map_some, Option.some.injEq] at h
            subst h
            obtain ⟨st', h1, more, h2⟩ := ih q' out' (pre ++ t.enc v) hf' (fun x hx => hq x (List.mem_cons_of_mem _ hx)) ho
            refine ⟨st', ?_, more, by rw [h2]; simp⟩
            simp only [bsRun, List.flatMap_cons]
            rw [Sch.read_enc t v (hq _ List.mem_cons_self) pre]
            simp only [Res.ok_bind]
            have e : pre ++ (t.enc v ++ q'.flatMap (fun x => x.1.enc x.2)) =
              (pre ++ t.enc v) ++ q'.flatMap (fun x => x.1.enc x.2) := by simp
            rw [e, h1]
            simp
        · simp at h

/-- **C18.** On a stream already holding any bytes `pre` (all of them already read), any interleaving of typed writes and typed
reads in which each read asks for the type of the oldest unread value succeeds and returns exactly the values written, in
order; the bytes that were there before are untouched (everything is appended). -/
theorem C18_stream_is_a_queue (pre : List Byte) (ops : List BsOp) (hf : BsFits ops) (out : List (Σ s : Sch, s.V))
    (h : bsSpec ops [] = some out) :
    ∃ st', bsRun ops ⟨pre, pre.length, pre.length, false⟩ = .ok (out, st') ∧ ∃ more, st'.buf = pre ++ more := by
  obtain ⟨st', h1, more, h2⟩ := bsRun_spec ops [] out pre hf (by simp) h
  exact ⟨st', by simpa using h1, more, by simpa using h2⟩

/-- **C18, position independence.** A value read back from the middle of any stream: whatever comes before and after, the read
returns the value, stops at the byte after it, and changes no byte. `w` is what writing `v` on an empty stream produces. -/
theorem C18_read_mid (s : Sch) (v : s.V) (hf : s.Fits v) (pre post : List Byte) (pp : Nat) (w : List Byte)
    (hw : w = (s.write ⟨[], 0, 0, false⟩ v).buf) :
    s.read ⟨pre ++ (w ++ post), pre.length, pp, false⟩ = .ok (v, ⟨pre ++ (w ++ post), (pre ++ w).length, pp, false⟩) := by
  rw [Sch.write_enc s v _ rfl rfl] at hw
  simp only [Strm.app, List.nil_append] at hw
  subst hw
  exact Sch.read_enc s v hf pre post pp

/-- **C18.** Reading a vector where there is no vector marker throws, and nothing else is consumed or returned. -/
theorem C18_vector_flag_mismatch {T : Type} (deser : Strm → Res (T × Strm)) (n : Nat) (pre bs post : List Byte) (pp : Nat)
    (old : List T) (oldt : List (Obj n)) (h4 : bs.length = 4) (hne : bs ≠ leBytes 4 0x124) :
    streamReadVector deser ⟨pre ++ (bs ++ post), pre.length, pp, false⟩ old = .throws ∧
    streamReadVectorTrivial ⟨pre ++ (bs ++ post), pre.length, pp, false⟩ oldt = .throws := by
  have hv : leVal bs ≠ vectorFlag := by
    intro e
    apply hne
    rw [← leBytes_leVal bs, h4, e]; rfl
  unfold streamReadVector streamReadVectorTrivial
  rw [streamReadLocal_mid pre bs post pp 4 h4]
  simp [hv]

/-- **C18, existing contents.** `stream_read_vector` appends to the vector given by the caller. -/
theorem C18_read_vector_appends (s : Sch) (v : List s.V) (hf : Sch.Fits (.vec s) v) (pre post : List Byte) (pp : Nat)
    (old : List s.V) (w : List Byte) (hw : w = (streamWriteVector s.write ⟨[], 0, 0, false⟩ v).buf) :
    ∃ st', streamReadVector s.read ⟨pre ++ (w ++ post), pre.length, pp, false⟩ old = .ok (old ++ v, st') := by
  rw [streamWriteVector_app s.write s.enc (fun x st h1 h2 => Sch.write_enc s x st h1 h2) _ v rfl rfl] at hw
  simp only [Strm.app, List.nil_append] at hw
  subst hw
  exact ⟨_, streamReadVector_mid s.read s.enc v hf.1 pp (fun x hx pre post => Sch.read_enc s x (hf.2 x hx) pre post pp) pre post old⟩

/-- Writing in the middle: consecutive writes are one write. -/
theorem Strm.write_write (st : Strm) (a b : List Byte) (hb : st.bad = false) (hp : st.ppos ≤ st.buf.length) : (st.write a).write b = st.write (a ++ b) := by
  obtain ⟨buf, g, p, bad⟩ := st
  simp only at hb hp
  subst hb
  unfold Strm.write
  simp only [Bool.false_eq_true, if_false, Strm.mk.injEq, List.length_append, true_and, and_true]
  have h1 : ((buf.take p ++ a) ++ buf.drop (p + a.length)).take (p + a.length) = buf.take p ++ a := by
    have : p + a.length = (buf.take p ++ a).length := by rw [List.length_append, List.length_take, Nat.min_eq_left hp]
    rw [this, List.take_left]
  have h2 : ((buf.take p ++ a) ++ buf.drop (p + a.length)).drop (p + a.length + b.length) = buf.drop (p + (a.length + b.length)) := by
    have : p + a.length = (buf.take p ++ a).length := by rw [List.length_append, List.length_take, Nat.min_eq_left hp]
    rw [← List.drop_drop]
    conv => lhs; arg 2; rw [this, List.drop_left, ← this]
    rw [List.drop_drop]; congr 1; omega
  refine ⟨?_, by omega⟩
  rw [h1, h2]
  simp only [List.append_assoc]

theorem Strm.write_ok (st : Strm) (a : List Byte) (hb : st.bad = false) (hp : st.ppos ≤ st.buf.length) :
    (st.write a).bad = false ∧ (st.write a).ppos ≤ (st.write a).buf.length := by
  unfold Strm.write
  rw [if_neg (by rw [hb]; decide)]
  refine ⟨hb, ?_⟩
  simp only [List.length_append, List.length_take]
  omega

theorem Strm.write_nil (st : Strm) (hb : st.bad = false) (hp : st.ppos ≤ st.buf.length) : st.write [] = st := by
  obtain ⟨buf, g, p, bad⟩ := st
  simp only at hb
  subst hb
  unfold Strm.write
  simp

/-- Every typed write is one write of the bytes of the value, wherever the put position is. -/
theorem Sch.write_any : (s : Sch) → (v : s.V) → (st : Strm) → st.bad = false → st.ppos ≤ st.buf.length → s.write st v = st.write (s.enc v)
  | .raw _, _, _, _, _ => rfl
  | .str, v, st, hb, hp => Strm.write_write st _ _ hb hp
  | .tvec n, v, st, hb, hp => by
    show ((st.write (leBytes 4 vectorFlag)).write (leBytes 8 (List.length (α := Obj n) v))).write (bytesOf (n := n) v) = _
    rw [Strm.write_write st _ _ hb hp, Strm.write_write st _ _ hb hp, List.append_assoc]
    rfl
  | .vec s, v, st, hb, hp => by
    have hf : ∀ (l : List s.V) (st : Strm), st.bad = false → st.ppos ≤ st.buf.length → l.foldl s.write st = st.write (l.flatMap s.enc) := by
      intro l
      induction l with
      | nil => intro st hb hp; exact (Strm.write_nil st hb hp).symm
      | cons x r ih =>
        intro st hb hp
        obtain ⟨o1, o2⟩ := Strm.write_ok st (s.enc x) hb hp
        rw [List.foldl_cons, Sch.write_any s x st hb hp, ih _ o1 o2, Strm.write_write st _ _ hb hp, List.flatMap_cons]
    show List.foldl s.write ((st.write (leBytes 4 vectorFlag)).write (leBytes 8 (List.length (α := s.V) v))) v = _
    rw [Strm.write_write st _ _ hb hp]
    obtain ⟨o1, o2⟩ := Strm.write_ok st (leBytes 4 vectorFlag ++ leBytes 8 (List.length (α := s.V) v)) hb hp
    rw [hf v _ o1 o2, Strm.write_write st _ _ hb hp, List.append_assoc]
    rfl
  | .pair a b, (v, w), st, hb, hp => by
    show b.write (a.write st v) w = st.write (a.enc v ++ b.enc w)
    obtain ⟨o1, o2⟩ := Strm.write_ok st (a.enc v) hb hp
    rw [Sch.write_any a v st hb hp, Sch.write_any b w _ o1 o2, Strm.write_write st _ _ hb hp]

/-- **C18, overwriting.** Writing a value where the put position is in the middle of the stream replaces exactly as many bytes as the value takes: what comes before and
after is kept, and the value is read back from there. -/
theorem C18_overwrite (s : Sch) (v : s.V) (hf : s.Fits v) (pre old post : List Byte) (gp : Nat) (w : List Byte) (hw : w = (s.write ⟨[], 0, 0, false⟩ v).buf)
    (hl : old.length = w.length) :
    s.write ⟨pre ++ (old ++ post), gp, pre.length, false⟩ v = ⟨pre ++ (w ++ post), gp, (pre ++ w).length, false⟩ ∧
    s.read ⟨pre ++ (w ++ post), pre.length, (pre ++ w).length, false⟩ = .ok (v, ⟨pre ++ (w ++ post), (pre ++ w).length, (pre ++ w).length, false⟩) := by
  refine ⟨?_, C18_read_mid s v hf pre post _ w hw⟩
  rw [Sch.write_enc s v _ rfl rfl] at hw
  simp only [Strm.app, List.nil_append] at hw
  rw [Sch.write_any s v _ rfl (by simp), ← hw]
  unfold Strm.write
  rw [if_neg (by simp)]
  simp only [Strm.mk.injEq, List.take_left, List.length_append, and_true]
  rw [← List.drop_drop, List.drop_left, ← hl, List.drop_left, List.append_assoc]

example : Sch.write .str ⟨[1#8, 9#8, 9#8, 9#8, 9#8, 9#8, 9#8, 9#8, 9#8, 9#8, 2#8], 0, 1, false⟩ [65#8] =
    ⟨[1#8, 1#8, 0#8, 0#8, 0#8, 0#8, 0#8, 0#8, 0#8, 65#8, 2#8], 0, 10, false⟩ := by decide

/-- A concrete history meeting the hypotheses: a u16, a string and a vector of structures (u8, string) written and read in a
mixed order after existing bytes. -/
def bsExample : List BsOp :=
  [.w (.raw 2) ⟨[1#8, 2#8], rfl⟩, .w .str [65#8, 66#8], .r (.raw 2),
   .w (.vec (.pair (.raw 1) .str)) [(⟨[7#8], rfl⟩, [67#8]), (⟨[8#8], rfl⟩, [])], .r .str, .w (.tvec 2) [⟨[1#8, 1#8], rfl⟩],
   .r (.vec (.pair (.raw 1) .str)), .r (.tvec 2)]

example : (bsSpec bsExample []).isSome ∧ ((bsSpec bsExample []).map List.length) = some 4 := by decide

example : BsFits bsExample := by
  intro s v h
  simp only [bsExample, List.mem_cons, List.not_mem_nil, or_false, reduceCtorEq, false_or] at h
  rcases h with ⟨rfl, _⟩ | ⟨rfl, _⟩ | ⟨rfl, _⟩ | ⟨rfl, _⟩
  · trivial
  · exact (by decide : (2 : Nat) < 2 ^ 63)
  · refine ⟨(by decide : (2 : Nat) < 2 ^ 63), ?_⟩
    intro x hx
    rcases List.mem_cons.1 hx with rfl | hx
    · exact ⟨trivial, (by decide : (1 : Nat) < 2 ^ 63)⟩
    · rw [List.mem_singleton.1 hx]; exact ⟨trivial, (by decide : (0 : Nat) < 2 ^ 63)⟩
  · exact ⟨(by decide : (1 : Nat) < 2 ^ 63), (by decide : (1 * 2 : Nat) < 2 ^ 63)⟩

example : (bsRun bsExample ⟨[9#8, 9#8], 2, 2, false⟩).bind (fun r => .ok r.1.length) = .ok 4 := by decide +kernel

end Shamrock
