import Verif.Model.Collective
import Mathlib.Tactic.Linarith
/-! Properties C26 (gathers) and C27 (parallel generation). -/
namespace Shamrock

/-- Exclusive sums starting at `a` (specification of the displacements). -/
def exSums : List Nat → Nat → List Nat
  | [], _ => []
  | c :: l, a => a :: exSums l (a + c)

theorem exSums_length (l : List Nat) (a : Nat) : (exSums l a).length = l.length := by
  induction l generalizing a with
  | nil => rfl
  | cons c l ih => simp [exSums, ih]

theorem exSums_get (l : List Nat) (a i : Nat) (h : i < l.length) : (exSums l a)[i]? = some (a + (l.take i).sum) := by
  induction l generalizing a i with
  | nil => simp at h
  | cons c l ih =>
    cases i with
    | zero => simp [exSums]
    | succ i =>
      simp only [exSums, List.getElem?_cons_succ, List.take_succ_cons, List.sum_cons]
      rw [ih _ _ (by simpa using h)]
      congr 1; omega

theorem exScanInt_spec (l : List Nat) (a : Nat) (h : a + l.sum < 2 ^ 31) : exScanInt l a = .ok (exSums l a) := by
  induction l generalizing a with
  | nil => rfl
  | cons c l ih =>
    cases l with
    | nil => rfl
    | cons d l =>
      rw [List.sum_cons] at h
      simp only [exScanInt]
      rw [if_pos (by omega), ih (a + c) (by omega)]
      rfl

theorem blockWrite_mid {T : Type} (pre mid post l : List T) (h : mid.length = l.length) :
    blockWrite (pre ++ (mid ++ post)) pre.length l = .ok (pre ++ l ++ post) := by
  unfold blockWrite
  rw [if_pos (by simp [h])]
  congr 1
  have e : List.drop (pre.length + l.length) (pre ++ (mid ++ post)) = post := by
    rw [← List.append_assoc]
    exact List.drop_left' (by simp [h])
  rw [List.take_left' rfl, e]

theorem mpiAllgatherv_spec {T : Type} (xs : List (List T)) (pre mid post : List T) (h : mid.length = xs.flatten.length) :
    mpiAllgatherv xs (xs.map List.length) (exSums (xs.map List.length) pre.length) (pre ++ mid ++ post) = .ok (pre ++ xs.flatten ++ post) := by
  induction xs generalizing pre mid with
  | nil =>
    have : mid = [] := List.length_eq_zero_iff.1 (by simpa using h)
    simp [mpiAllgatherv, this]
  | cons x xs ih =>
    rw [List.flatten_cons, List.length_append] at h
    simp only [List.map_cons, exSums, mpiAllgatherv, if_true]
    have e1 : pre ++ mid ++ post = pre ++ (mid.take x.length ++ (mid.drop x.length ++ post)) := by
      rw [← List.append_assoc (mid.take _), List.take_append_drop, List.append_assoc]
    rw [e1, blockWrite_mid _ _ _ _ (by rw [List.length_take]; omega)]
    simp only [Res.bind]
    have := ih (pre ++ x) (mid.drop x.length) (by rw [List.length_drop]; omega)
    rw [List.length_append] at this
    rw [← List.append_assoc, this]
    simp

theorem nat_le_sum (l : List Nat) (a : Nat) (h : a ∈ l) : a ≤ l.sum := by
  induction l with
  | nil => simp at h
  | cons c l ih =>
    rw [List.sum_cons]
    rcases List.mem_cons.1 h with rfl | h
    · omega
    · have := ih h; omega

theorem accU64_from (l : List Nat) (a : Nat) : l.foldl u64add a = if l = [] then a else (a + l.sum) % 2 ^ 64 := by
  induction l generalizing a with
  | nil => rfl
  | cons c l ih =>
    rw [List.foldl_cons, ih, if_neg (List.cons_ne_nil c l), List.sum_cons]
    by_cases h : l = []
    · subst h; simp [u64add]
    · rw [if_neg h]; unfold u64add; rw [← Nat.add_assoc]; omega

theorem accU64_eq (l : List Nat) : accU64 l = l.sum % 2 ^ 64 := by
  unfold accU64; rw [accU64_from]
  split
  · rename_i h; subst h; rfl
  · rw [Nat.zero_add]

theorem sum_map_length {T : Type} (xs : List (List T)) : (xs.map List.length).sum = xs.flatten.length := (List.length_flatten).symm

theorem allgatherv_ok {T : Type} (dflt : T) (xs : List (List T)) (recv0 : List T) (h : xs.flatten.length < 2 ^ 31) :
    vectorAllgatherv dflt xs recv0 = .ok (xs.flatten, if xs.flatten = [] then [] else exSums (xs.map List.length) 0) := by
  have h1 : xs.any (fun x => decide (2 ^ 31 ≤ x.length)) = false := by
    rw [List.any_eq_false]
    intro x hx
    have : x.length ≤ xs.flatten.length := by
      rw [List.length_flatten]; exact nat_le_sum _ _ (List.mem_map_of_mem hx)
    simp; omega
  have h2 : accU64 (xs.map List.length) = xs.flatten.length := by
    rw [accU64_eq, sum_map_length, Nat.mod_eq_of_lt (by omega)]
  unfold vectorAllgatherv
  rw [h1]
  simp only [h2, Bool.false_eq_true, if_false]
  rw [if_neg (by omega)]
  by_cases he : xs.flatten = []
  · simp [he]
  · have hl : xs.flatten.length ≠ 0 := fun e => he (List.length_eq_zero_iff.1 e)
    rw [if_neg hl, if_neg he, exScanInt_spec _ _ (by rw [sum_map_length]; omega)]
    simp only [Res.bind]
    have := mpiAllgatherv_spec xs [] (recv0.take xs.flatten.length ++ List.replicate (xs.flatten.length - recv0.length) dflt) []
      (by simp only [List.length_append, List.length_take, List.length_replicate]; omega)
    simp only [List.nil_append, List.append_nil, List.length_nil] at this
    rw [this]

/-- **C26, plain gather.** Whatever the receive vector held before, it becomes on every rank the concatenation of the vectors of all ranks in
rank order, and the displacements are the positions of the blocks; if the total does not fit an `int` the call throws instead. -/
theorem C26_allgatherv {T : Type} (dflt : T) (xs : List (List T)) (recv0 : List T) (hw : xs.length < 2 ^ 32) :
    vectorAllgatherv dflt xs recv0 =
      if xs.flatten.length < 2 ^ 31 then .ok (xs.flatten, if xs.flatten = [] then [] else exSums (xs.map List.length) 0) else .throws := by
  split
  · rename_i h; exact allgatherv_ok dflt xs recv0 h
  · rename_i h
    unfold vectorAllgatherv
    split
    · rfl
    · rename_i h1
      have hb : ∀ x ∈ xs, x.length < 2 ^ 31 := by
        intro x hx
        by_contra hc
        exact h1 (List.any_eq_true.2 ⟨x, hx, by simpa using hc⟩)
      have hs : (xs.map List.length).sum ≤ xs.length * 2 ^ 31 := by
        clear h h1 hw
        induction xs with
        | nil => simp
        | cons x xs ih =>
          rw [List.map_cons, List.sum_cons, List.length_cons]
          have := ih (fun y hy => hb y (List.mem_cons_of_mem _ hy))
          have := hb x List.mem_cons_self
          rw [Nat.succ_mul]; omega
      have hs2 : xs.length * 2 ^ 31 < 2 ^ 64 := by
        calc xs.length * 2 ^ 31 < 2 ^ 32 * 2 ^ 31 := Nat.mul_lt_mul_of_pos_right hw (by decide)
          _ < 2 ^ 64 := by decide
      simp only [accU64_eq, sum_map_length] at *
      rw [Nat.mod_eq_of_lt (by omega), if_pos (by omega)]

example : vectorAllgatherv 0 [[1, 2], [], [3]] [9, 9, 9, 9, 9] = .ok ([1, 2, 3], [0, 2, 2]) := by decide +kernel

/-- The state of the insertion loop of the chunked gather. -/
theorem agvlInsert_spec {T : Type} (ps cs : List (List T)) (recv0 : List T) (hlen : cs.length = ps.length)
    (hsz : (ps.flatten.length + cs.flatten.length) < 2 ^ 64) (n i : Nat) (hi : i + n = ps.length) (disp rd : List Nat)
    (hdisp : ∀ j ≤ ps.length, disp[j]? = some (cs.take j).flatten.length)
    (hrdl : rd.length = ps.length + 1)
    (hrd : ∀ j ≤ ps.length, rd[j]? = some ((ps.take j).flatten.length + if j < i then (cs.take j).flatten.length else 0)) :
    ∃ rd', agvlInsert cs.flatten disp n i (((List.zipWith (· ++ ·) ps cs).take i).flatten ++ (ps.drop i).flatten ++ recv0) rd
        = .ok ((List.zipWith (· ++ ·) ps cs).flatten ++ recv0, rd') ∧ rd'.length = ps.length + 1 ∧
      (∀ j < ps.length, rd'[j]? = some ((ps.take j).flatten.length + (cs.take j).flatten.length)) ∧
      rd'[ps.length]? = some ps.flatten.length := by
  induction n generalizing i rd with
  | zero =>
    simp only [Nat.add_zero] at hi
    subst hi
    refine ⟨rd, ?_, hrdl, fun j hj => ?_, ?_⟩
    · simp only [agvlInsert]
      rw [List.take_of_length_le (by simp), List.drop_length]
      simp
    · rw [hrd j (by omega), if_pos hj]
    · rw [hrd _ le_rfl, if_neg (by omega)]; simp
  | succ n ih =>
    have hip : i < ps.length := by omega
    have hic : i < cs.length := by omega
    have e1 : (cs.take (i + 1)).flatten = (cs.take i).flatten ++ cs[i] := by
      rw [List.take_succ_eq_append_getElem hic, List.flatten_append, List.flatten_cons, List.flatten_nil, List.append_nil]
    have e2 : (ps.take (i + 1)).flatten = (ps.take i).flatten ++ ps[i] := by
      rw [List.take_succ_eq_append_getElem hip, List.flatten_append, List.flatten_cons, List.flatten_nil, List.append_nil]
    have e3 : (ps.drop i).flatten = ps[i] ++ (ps.drop (i + 1)).flatten := by
      rw [List.drop_eq_getElem_cons hip, List.flatten_cons]
    have e4 : ((List.zipWith (· ++ ·) ps cs).take (i + 1)).flatten = ((List.zipWith (· ++ ·) ps cs).take i).flatten ++ (ps[i] ++ cs[i]) := by
      rw [List.take_succ_eq_append_getElem (by simp; omega), List.flatten_append, List.flatten_cons, List.flatten_nil, List.append_nil, List.getElem_zipWith]
    have e5 : ((List.zipWith (· ++ ·) ps cs).take i).flatten.length = (ps.take i).flatten.length + (cs.take i).flatten.length := by
      rw [List.take_zipWith]
      have : (ps.take i).length = (cs.take i).length := by simp [hlen]
      generalize ps.take i = p at *
      generalize cs.take i = c at *
      clear * - this
      induction p generalizing c with
      | nil => cases c <;> simp at *
      | cons a p ih =>
        cases c with
        | nil => simp at this
        | cons b c =>
          have := ih c (by simpa using this)
          simp only [List.zipWith_cons_cons, List.flatten_cons, List.length_append, this]; omega
    have hfc : cs.flatten = (cs.take i).flatten ++ (cs[i] ++ (cs.drop (i + 1)).flatten) := by
      conv_lhs => rw [← List.take_append_drop i cs, List.drop_eq_getElem_cons hic]
      rw [List.flatten_append, List.flatten_cons]
    have hle1 : (ps.take i).flatten.length ≤ ps.flatten.length := by
      conv_rhs => rw [← List.take_append_drop i ps, List.flatten_append, List.length_append]
      omega
    have hle2 : (cs.take i).flatten.length + cs[i].length ≤ cs.flatten.length := by
      rw [hfc]; simp only [List.length_append]; omega
    simp only [agvlInsert]
    rw [hdisp i (by omega), hdisp (i + 1) (by omega), hrd i (by omega), hrd (i + 1) (by omega), if_neg (by omega), if_neg (by omega)]
    simp only [Nat.add_zero]
    rw [e1, e2]
    simp only [List.length_append]
    rw [if_pos (by
      rw [e3]
      simp only [List.length_append, e5]
      omega)]
    obtain ⟨rd', g1, g2, g3, g4⟩ := ih (i + 1) (by omega) (rd.set i (u64add (ps.take i).flatten.length (cs.take i).flatten.length)) (by simpa using hrdl)
      (fun j hj => by
        by_cases hji : j = i
        · subst hji
          rw [List.getElem?_set_self (by omega), if_pos (by omega)]
          unfold u64add
          rw [Nat.mod_eq_of_lt (by omega)]
        · rw [List.getElem?_set_ne (by omega), hrd j hj]
          by_cases hlt : j < i
          · rw [if_pos hlt, if_pos (by omega)]
          · rw [if_neg hlt, if_neg (by omega)])
    refine ⟨rd', ?_, g2, g3, g4⟩
    rw [← g1]
    congr 1
    have h1 : ((List.zipWith (· ++ ·) ps cs).take i).flatten ++ (ps.drop i).flatten ++ recv0
        = (((List.zipWith (· ++ ·) ps cs).take i).flatten ++ ps[i]) ++ ((ps.drop (i + 1)).flatten ++ recv0) := by
      rw [e3]; simp only [List.append_assoc]
    have h2 : (ps.take i).flatten.length + ps[i].length + (cs.take i).flatten.length = (((List.zipWith (· ++ ·) ps cs).take i).flatten ++ ps[i]).length := by
      simp only [List.length_append, e5]; omega
    have h3 : (cs.flatten.drop (cs.take i).flatten.length).take ((cs.take i).flatten.length + cs[i].length - (cs.take i).flatten.length) = cs[i] := by
      rw [hfc, List.drop_left' rfl, Nat.add_sub_cancel_left, List.take_left' rfl]
    rw [h1, h2, List.take_left' rfl, List.drop_left' rfl, h3, e4]
    simp only [List.append_assoc]

theorem chunk_take {T : Type} (cps : Nat) (x : List T) (off : Nat) (h : off ≤ x.length) :
    x.take off ++ agvlChunk cps x off = x.take (off + (agvlChunk cps x off).length) ∧ (agvlChunk cps x off).length = min cps (x.length - off) := by
  have hl : (agvlChunk cps x off).length = min cps (x.length - off) := by
    unfold agvlChunk; simp only [List.length_take, List.length_drop]; omega
  refine ⟨?_, hl⟩
  rw [hl]
  unfold agvlChunk
  rw [List.take_add]

/-- Taken prefixes. -/
def agvlTaken {T : Type} (xs : List (List T)) (offs : List Nat) : List (List T) := List.zipWith (fun x o => x.take o) xs offs

theorem agvlStep_spec {T : Type} (dflt : T) (cps : Nat) (xs : List (List T)) (offs : List Nat) (recv0 : List T) (rd : List Nat)
    (hlen : offs.length = xs.length) (hcps : cps * xs.length < 2 ^ 31) (hsz : xs.flatten.length < 2 ^ 63)
    (hoff : ∀ (i : Nat) x o, xs[i]? = some x → offs[i]? = some o → o ≤ x.length)
    (hmore : (List.zipWith (agvlChunk cps) xs offs).flatten ≠ [])
    (hrdl : rd.length = xs.length + 1)
    (hrd : ∀ j ≤ xs.length, rd[j]? = some ((agvlTaken xs offs).take j).flatten.length) :
    ∃ rd', agvlStep dflt cps xs offs ((agvlTaken xs offs).flatten ++ recv0) rd
        = .ok (List.zipWith (fun (x : List T) o => o + min cps (x.length - o)) xs offs,
            (agvlTaken xs (List.zipWith (fun (x : List T) o => o + min cps (x.length - o)) xs offs)).flatten ++ recv0, rd') ∧
      rd'.length = xs.length + 1 ∧
      ∀ j ≤ xs.length, rd'[j]? = some ((agvlTaken xs (List.zipWith (fun (x : List T) o => o + min cps (x.length - o)) xs offs)).take j).flatten.length := by
  set offs' := List.zipWith (fun (x : List T) o => o + min cps (x.length - o)) xs offs with hoffs'
  set cs := List.zipWith (agvlChunk cps) xs offs with hcs
  have hcl : cs.length = xs.length := by simp [hcs, hlen]
  have hpl : (agvlTaken xs offs).length = xs.length := by simp [agvlTaken, hlen]
  -- the new prefixes
  have hnew : List.zipWith (· ++ ·) (agvlTaken xs offs) cs = agvlTaken xs offs' := by
    apply List.ext_getElem?
    intro i
    simp only [agvlTaken, hcs, hoffs', List.getElem?_zipWith]
    cases hx : xs[i]? with
    | none => rfl
    | some x =>
      cases ho : offs[i]? with
      | none => rfl
      | some o =>
        obtain ⟨h1, h2⟩ := chunk_take cps x o (hoff i x o hx ho)
        simp only
        rw [h1, h2]
  have hlens : List.zipWith (· + ·) offs (cs.map List.length) = offs' := by
    apply List.ext_getElem?
    intro i
    simp only [hcs, hoffs', List.getElem?_zipWith, List.getElem?_map]
    cases hx : xs[i]? with
    | none => cases offs[i]? <;> rfl
    | some x =>
      cases ho : offs[i]? with
      | none => rfl
      | some o =>
        obtain ⟨h1, h2⟩ := chunk_take cps x o (hoff i x o hx ho)
        simp only [Option.map_some]
        rw [h2]
  have hcsz : cs.flatten.length ≤ cps * xs.length := by
    rw [List.length_flatten, ← hcl]
    have : ∀ l ∈ cs, l.length ≤ cps := by
      intro l hl
      rw [hcs] at hl
      obtain ⟨i, hi⟩ := List.getElem?_of_mem hl
      rw [List.getElem?_zipWith] at hi
      revert hi
      cases hx : xs[i]? with
      | none => simp
      | some x =>
        cases ho : offs[i]? with
        | none => simp
        | some o =>
          intro hi
          simp only [Option.some.injEq] at hi
          rw [← hi, (chunk_take cps x o (hoff i x o hx ho)).2]; omega
    clear_value cs
    clear hnew hlens hcl hcs hmore
    induction cs with
    | nil => simp
    | cons c cs ih =>
      rw [List.map_cons, List.sum_cons, List.length_cons, Nat.mul_succ]
      have := ih (fun l hl => this l (List.mem_cons_of_mem _ hl))
      have := this
      have := ‹∀ l ∈ c :: cs, l.length ≤ cps› c List.mem_cons_self
      omega
  have htot : (agvlTaken xs offs).flatten.length ≤ xs.flatten.length := by
    unfold agvlTaken
    clear * - 
    induction xs generalizing offs with
    | nil => simp
    | cons x xs ih =>
      cases offs with
      | nil => simp
      | cons o offs =>
        have := ih offs
        simp only [List.zipWith_cons_cons, List.flatten_cons, List.length_append, List.length_take]
        omega
  have hd : ∀ j ≤ xs.length, (exSums (cs.map List.length) 0 ++ [cs.flatten.length])[j]? = some (cs.take j).flatten.length := by
    intro j hj
    by_cases hjl : j < xs.length
    · rw [List.getElem?_append_left (by rw [exSums_length]; simp; omega), exSums_get _ _ _ (by simp; omega), Nat.zero_add,
        ← List.map_take, sum_map_length]
    · have : j = xs.length := by omega
      subst this
      rw [List.getElem?_append_right (by rw [exSums_length]; simp [hcl]), exSums_length]
      simp [hcl, List.take_of_length_le]
  obtain ⟨rd', i1, i2, i3, i4⟩ := agvlInsert_spec (agvlTaken xs offs) cs recv0 (by omega) (by omega) xs.length 0 (by omega)
    (exSums (cs.map List.length) 0 ++ [cs.flatten.length]) rd (fun j hj => hd j (by omega)) (by omega)
    (fun j hj => by rw [hrd j (by omega), if_neg (by omega), Nat.add_zero])
  simp only [List.take_zero, List.flatten_nil, List.nil_append, List.drop_zero] at i1
  have hdl : (exSums (cs.map List.length) 0 ++ [cs.flatten.length]).length - 1 = xs.length := by
    simp [exSums_length, hcl]
  refine ⟨rd'.set xs.length (u64add (agvlTaken xs offs).flatten.length cs.flatten.length), ?_, by simp only [List.length_set]; omega, ?_⟩
  · simp only [agvlStep]
    rw [← hcs, allgatherv_ok _ _ _ (by omega), if_neg hmore]
    simp only [Res.bind]
    rw [if_neg (by omega), hdl, i1]
    simp only
    rw [show rd'[xs.length]? = some (agvlTaken xs offs).flatten.length by rw [← hpl]; exact i4, hd _ le_rfl]
    simp only
    rw [hlens, hnew, List.take_of_length_le (by omega)]
  · intro j hj
    have hz : ∀ j ≤ xs.length, ((agvlTaken xs offs').take j).flatten.length = ((agvlTaken xs offs).take j).flatten.length + (cs.take j).flatten.length := by
      intro j hj
      rw [← hnew, List.take_zipWith]
      have : ((agvlTaken xs offs).take j).length = (cs.take j).length := by simp [hpl, hcl]
      generalize (agvlTaken xs offs).take j = p at *
      generalize cs.take j = c at *
      clear * - this
      induction p generalizing c with
      | nil => cases c <;> simp at *
      | cons a p ih =>
        cases c with
        | nil => simp at this
        | cons b c =>
          have := ih c (by simpa using this)
          simp only [List.zipWith_cons_cons, List.flatten_cons, List.length_append, this]; omega
    rw [hz j hj]
    by_cases hjl : j = xs.length
    · subst hjl
      rw [List.getElem?_set_self (by omega)]
      unfold u64add
      rw [Nat.mod_eq_of_lt (by omega), List.take_of_length_le (by omega), List.take_of_length_le (by omega)]
    · rw [List.getElem?_set_ne (by omega), i3 j (by omega)]

theorem agvlLoop_spec {T : Type} (dflt : T) (cps : Nat) (xs : List (List T)) (recv0 : List T)
    (hpos : 0 < cps) (hcps : cps * xs.length < 2 ^ 31) (hsz : xs.flatten.length < 2 ^ 63) (M : Nat)
    (fuel : Nat) (hf : M < fuel) (offs : List Nat) (rd : List Nat) (hlen : offs.length = xs.length)
    (hoff : ∀ (i : Nat) x o, xs[i]? = some x → offs[i]? = some o → o ≤ x.length ∧ x.length ≤ o + M)
    (hrdl : rd.length = xs.length + 1)
    (hrd : ∀ j ≤ xs.length, rd[j]? = some ((agvlTaken xs offs).take j).flatten.length) :
    agvlLoop dflt cps xs fuel offs ((agvlTaken xs offs).flatten ++ recv0) rd = some (.ok (xs.flatten ++ recv0)) := by
  induction M generalizing fuel offs rd with
  | zero =>
    obtain ⟨fuel, rfl⟩ : ∃ f, fuel = f + 1 := ⟨fuel - 1, by omega⟩
    simp only [agvlLoop]
    have hall : ∀ (i : Nat) x o, xs[i]? = some x → offs[i]? = some o → o = x.length := fun i x o hx ho => by
      have := hoff i x o hx ho; omega
    have e : agvlTaken xs offs = xs := by
      apply List.ext_getElem?
      intro i
      simp only [agvlTaken, List.getElem?_zipWith]
      cases hx : xs[i]? with
      | none => rfl
      | some x =>
        have hi : i < offs.length := by rw [hlen]; exact (List.getElem?_eq_some_iff.1 hx).1
        have ho := List.getElem?_eq_getElem hi
        rw [ho]
        simp only
        rw [hall i x _ hx ho, List.take_length]
    rw [if_pos, e]
    rw [List.all_eq_true]
    intro b hb
    obtain ⟨i, hi⟩ := List.getElem?_of_mem hb
    rw [List.getElem?_zipWith] at hi
    revert hi
    cases hx : xs[i]? with
    | none => simp
    | some x =>
      cases ho : offs[i]? with
      | none => simp
      | some o => simp [hall i x o hx ho]
  | succ M ih =>
    obtain ⟨fuel, rfl⟩ : ∃ f, fuel = f + 1 := ⟨fuel - 1, by omega⟩
    simp only [agvlLoop]
    split
    · rename_i hdone
      have hall : ∀ (i : Nat) x o, xs[i]? = some x → offs[i]? = some o → o = x.length := fun i x o hx ho => by
        have := List.all_eq_true.1 hdone (decide (o = x.length)) (List.mem_of_getElem? (i := i) (by rw [List.getElem?_zipWith, hx, ho]))
        simpa using this
      have e : agvlTaken xs offs = xs := by
        apply List.ext_getElem?
        intro i
        simp only [agvlTaken, List.getElem?_zipWith]
        cases hx : xs[i]? with
        | none => rfl
        | some x =>
          have hi : i < offs.length := by rw [hlen]; exact (List.getElem?_eq_some_iff.1 hx).1
          have ho := List.getElem?_eq_getElem hi
          rw [ho]
          simp only
          rw [hall i x _ hx ho, List.take_length]
      rw [e]
    · rename_i hdone
      have hmore : (List.zipWith (agvlChunk cps) xs offs).flatten ≠ [] := by
        intro hempty
        apply hdone
        rw [List.all_eq_true]
        intro b hb
        obtain ⟨i, hi⟩ := List.getElem?_of_mem hb
        rw [List.getElem?_zipWith] at hi
        revert hi
        cases hx : xs[i]? with
        | none => simp
        | some x =>
          cases ho : offs[i]? with
          | none => simp
          | some o =>
            have hc : agvlChunk cps x o ∈ List.zipWith (agvlChunk cps) xs offs :=
              List.mem_of_getElem? (i := i) (by rw [List.getElem?_zipWith, hx, ho])
            have hz := List.flatten_eq_nil_iff.1 hempty _ hc
            have h1 := (hoff i x o hx ho).1
            have h2 := (chunk_take cps x o h1).2
            rw [hz, List.length_nil] at h2
            intro hb
            simp only [Option.some.injEq] at hb
            rw [← hb]
            simp only [id, decide_eq_true_eq]
            omega
      obtain ⟨rd', s1, s2, s3⟩ := agvlStep_spec dflt cps xs offs recv0 rd hlen hcps hsz (fun i x o hx ho => (hoff i x o hx ho).1) hmore hrdl hrd
      rw [s1]
      simp only
      refine ih fuel (by omega) _ rd' (by simp [hlen]) (fun i x o hx ho => ?_) s2 s3
      rw [List.getElem?_zipWith, hx] at ho
      revert ho
      cases ho' : offs[i]? with
      | none => simp
      | some o' =>
        intro ho
        simp only [Option.some.injEq] at ho
        have := hoff i x o' hx ho'
        omega

/-- **C26, chunked gather.** For every positive chunk size (with chunk size times rank count below 2^31) the loop ends and the receive vector is,
on every rank, the concatenation of the vectors of all ranks in rank order, placed before what the vector held before. -/
theorem C26_allgatherv_large {T : Type} (dflt : T) (cps : Nat) (xs : List (List T)) (recv0 : List T)
    (hpos : 0 < cps) (hcps : cps * xs.length < 2 ^ 31) (hsz : xs.flatten.length < 2 ^ 63)
    (fuel : Nat) (hf : ∀ x ∈ xs, x.length < fuel) (hf0 : 0 < fuel) :
    vectorAllgathervLarge dflt cps xs recv0 fuel = some (.ok (xs.flatten ++ recv0)) := by
  have ht : agvlTaken xs (xs.map fun _ => 0) = xs.map fun _ => [] := by
    apply List.ext_getElem?
    intro i
    simp only [agvlTaken, List.getElem?_zipWith, List.getElem?_map]
    cases xs[i]? <;> rfl
  have hfl : ∀ l : List (List T), (l.map fun _ => ([] : List T)).flatten = [] := by
    intro l; induction l with
    | nil => rfl
    | cons a l ih => rw [List.map_cons, List.flatten_cons, ih]; rfl
  have := agvlLoop_spec dflt cps xs recv0 hpos hcps hsz (fuel - 1) fuel (by omega) (xs.map fun _ => 0) (List.replicate (xs.length + 1) 0) (by simp)
    (fun i x o hx ho => by
      rw [List.getElem?_map, hx] at ho
      simp only [Option.map_some, Option.some.injEq] at ho
      have := hf x (List.mem_of_getElem? hx)
      omega) (by simp)
    (fun j hj => by
      rw [ht, ← List.map_take, hfl, List.getElem?_replicate, if_pos (by omega)]; rfl)
  rw [ht, hfl, List.nil_append] at this
  exact this

example : vectorAllgathervLarge 0 2 [[1, 2, 3, 4, 5], [], [6, 7, 8]] [] 6 = some (.ok [1, 2, 3, 4, 5, 6, 7, 8]) := by decide +kernel

/-- Both gathers agree whenever both return. -/
theorem C26_gathers_agree {T : Type} (dflt : T) (cps : Nat) (xs : List (List T)) (recv0 : List T)
    (hpos : 0 < cps) (hcps : cps * xs.length < 2 ^ 31) (hsz : xs.flatten.length < 2 ^ 31) :
    ∃ disp fuel, vectorAllgatherv dflt xs recv0 = .ok (xs.flatten, disp) ∧ ∀ f ≥ fuel, vectorAllgathervLarge dflt cps xs [] f = some (.ok xs.flatten) := by
  refine ⟨_, xs.flatten.length + 1, allgatherv_ok dflt xs recv0 hsz, fun f hf => ?_⟩
  have := C26_allgatherv_large dflt cps xs [] hpos hcps (by omega) f (fun x hx => by
    have : x.length ≤ xs.flatten.length := by
      rw [List.length_flatten]; exact nat_le_sum _ _ (List.mem_map_of_mem hx)
    omega) (by omega)
  rw [this, List.append_nil]

/-- A chunk size of 0 (the default is 2^29 divided by the rank count) never ends unless there is nothing to send. -/
theorem C26_zero_chunk_defect : ∀ fuel, vectorAllgathervLarge 0 0 [[1], []] [] fuel = none := by
  have h : ∀ fuel, agvlLoop 0 0 [[1], []] fuel [0, 0] [] [0, 0, 0] = none := by
    intro fuel
    induction fuel with
    | zero => rfl
    | succ n ih =>
      have hs : agvlStep 0 0 [[1], []] [0, 0] [] [0, 0, 0] = .ok ([0, 0], [], [0, 0, 0]) := by decide +kernel
      have hc : (List.zipWith (fun (x : List Nat) (o : Nat) => decide (o = x.length)) [[1], []] [0, 0]).all id = false := by decide
      simp only [agvlLoop]
      rw [hs, hc]
      exact ih
  exact h

/-! ### C27 -/

/-- Value number `i` of the random engine started in state `e` (specification). -/
def engNth {E : Type} (next : E → E × Nat) (e : E) (i : Nat) : Nat := (next (engDiscard next i e)).2

/-- Values `a, …, b-1` of the engine. -/
def engSeg {E : Type} (next : E → E × Nat) (e : E) (a b : Nat) : List Nat := (List.range' a (b - a)).map (engNth next e)

/-- The generator after `c` values. -/
def ipgAt {E : Type} (next : E → E × Nat) (e : E) (nmax c : Nat) : IPG E := ⟨engDiscard next c e, nmax, c, decide (c = nmax)⟩

theorem engDiscard_add {E : Type} (next : E → E × Nat) (a b : Nat) (e : E) : engDiscard next b (engDiscard next a e) = engDiscard next (a + b) e := by
  induction a generalizing e with
  | zero => rw [Nat.zero_add]; rfl
  | succ a ih => rw [Nat.succ_add]; exact ih _

theorem engTake_spec {E : Type} (next : E → E × Nat) (n c : Nat) (e : E) :
    engTake next n (engDiscard next c e) = (engSeg next e c (c + n), engDiscard next (c + n) e) := by
  induction n generalizing c with
  | zero => simp [engTake, engSeg]
  | succ n ih =>
    have h1 : (next (engDiscard next c e)).1 = engDiscard next (c + 1) e := (engDiscard_add next c 1 e).symm ▸ rfl
    simp only [engTake, h1, ih (c + 1)]
    rw [show c + 1 + n = c + (n + 1) by omega]
    congr 1
    unfold engSeg
    rw [show c + (n + 1) - c = n + 1 by omega, show c + (n + 1) - (c + 1) = n by omega, List.range'_succ, List.map_cons]
    rfl

theorem engSeg_append {E : Type} (next : E → E × Nat) (e : E) (a b c : Nat) (h1 : a ≤ b) (h2 : b ≤ c) :
    engSeg next e a b ++ engSeg next e b c = engSeg next e a c := by
  unfold engSeg
  rw [← List.map_append]
  congr 1
  have := List.range'_append_1 (s := a) (m := b - a) (n := c - b)
  rw [show a + (b - a) = b by omega] at this
  rw [this]
  congr 1; omega

theorem ipg_skip {E : Type} (next : E → E × Nat) (e : E) (nmax c n : Nat) (hm : nmax < 2 ^ 64) (hc : c ≤ nmax) :
    (ipgAt next e nmax c).skip next n = ipgAt next e nmax (min (c + n) nmax) := by
  have h1 : u64sub nmax c = nmax - c := by unfold u64sub; omega
  have h2 : u64add c (min (nmax - c) n) = min (c + n) nmax := by unfold u64add; omega
  unfold IPG.skip
  simp only [ipgAt, h1, h2, engDiscard_add]
  rw [show c + min (nmax - c) n = min (c + n) nmax by omega]
  congr 1
  by_cases h : c = nmax
  · simp [h]
  · simp [h]

theorem ipg_seq {E : Type} (next : E → E × Nat) (e : E) (nmax c n : Nat) (hm : nmax < 2 ^ 64) (hc : c ≤ nmax) :
    (ipgAt next e nmax c).nextSeq next n = (engSeg next e c (min (c + n) nmax), ipgAt next e nmax (min (c + n) nmax)) := by
  have h1 : u64sub nmax c = nmax - c := by unfold u64sub; omega
  have h2 : u64add c (min n (nmax - c)) = min (c + n) nmax := by unfold u64add; omega
  unfold IPG.nextSeq
  by_cases h : c = nmax
  · subst h
    simp [ipgAt, engSeg]
  · simp only [ipgAt, h, decide_false, Bool.false_eq_true, if_false, h1, h2, engTake_spec, Bool.false_or]
    rw [show c + min n (nmax - c) = min (c + n) nmax by omega]

theorem take_sum_le (l : List Nat) (r : Nat) : (l.take r).sum + l.getD r 0 ≤ l.sum := by
  induction l generalizing r with
  | nil => simp
  | cons a l ih =>
    cases r with
    | zero => simp
    | succ r => have := ih r; simp only [List.take_succ_cons, List.sum_cons, List.getD_cons_succ]; omega

theorem ipg_par {E : Type} (next : E → E × Nat) (e : E) (nmax c r : Nat) (vals : List Nat) (hm : nmax < 2 ^ 64) (hc : c ≤ nmax)
    (hs : vals.sum < 2 ^ 64) :
    (ipgAt next e nmax c).nextPar next vals r =
      (engSeg next e (min (c + (vals.take r).sum) nmax) (min (c + (vals.take r).sum + vals.getD r 0) nmax), ipgAt next e nmax (min (c + vals.sum) nmax)) := by
  have hle := take_sum_le vals r
  have hv : fetchView vals r = (vals.sum, (vals.take r).sum) := by
    unfold fetchView
    rw [accU64_eq, accU64_eq, Nat.mod_eq_of_lt hs, Nat.mod_eq_of_lt (by omega)]
    by_cases h : r = 0
    · subst h; simp
    · rw [if_neg h]
  unfold IPG.nextPar
  by_cases h : c = nmax
  · subst h
    simp only [ipgAt, decide_true, if_true]
    rw [show min (c + (vals.take r).sum) c = c by omega, show min (c + (vals.take r).sum + vals.getD r 0) c = c by omega,
      show min (c + vals.sum) c = c by omega]
    simp [engSeg]
  · rw [if_neg (by simp [ipgAt, h])]
    simp only [hv]
    rw [ipg_skip next e nmax c _ hm hc, ipg_seq next e nmax _ _ hm (by omega)]
    simp only
    rw [ipg_skip next e nmax _ _ hm (by omega)]
    have h2 : u64sub (u64sub vals.sum (vals.getD r 0)) (vals.take r).sum = vals.sum - vals.getD r 0 - (vals.take r).sum := by
      unfold u64sub; omega
    rw [h2]
    congr 2 <;> omega

/-- One call of `next_n` on all ranks: outputs and generators. -/
def ipgCall {E : Type} (next : E → E × Nat) (gs : List (IPG E)) (vals : List Nat) (seq : Bool) : List (List Nat) × List (IPG E) :=
  let res := gs.zipIdx.map fun (g, r) => g.nextN next vals seq r
  (res.map (·.1), res.map (·.2))

/-- A history of calls: outputs per call and per rank, final generators. -/
def ipgHist {E : Type} (next : E → E × Nat) : List (List Nat × Bool) → List (IPG E) → List (List (List Nat)) × List (IPG E)
  | [], gs => ([], gs)
  | (vals, seq) :: calls, gs =>
    let (out, gs') := ipgCall next gs vals seq
    let (outs, gs'') := ipgHist next calls gs'
    (out :: outs, gs'')

/-- Count after a history. -/
def ipgCount (nmax : Nat) : List (List Nat × Bool) → Nat → Nat
  | [], c => c
  | (vals, _) :: calls, c => ipgCount nmax calls (min (c + vals.sum) nmax)

theorem ipg_flat {E : Type} (next : E → E × Nat) (e : E) (nmax c : Nat) (hc : c ≤ nmax) (vals : List Nat) (n : Nat) (hn : n ≤ vals.length) :
    ((List.range n).map fun r => engSeg next e (min (c + (vals.take r).sum) nmax) (min (c + (vals.take r).sum + vals.getD r 0) nmax)).flatten
      = engSeg next e c (min (c + (vals.take n).sum) nmax) := by
  induction n with
  | zero => simp [engSeg, hc]
  | succ n ih =>
    have hg : vals.getD n 0 = vals[n] := by rw [List.getD_eq_getElem?_getD, List.getElem?_eq_getElem (by omega)]; rfl
    rw [List.range_succ, List.map_append, List.flatten_append, ih (by omega), List.map_cons, List.map_nil, List.flatten_cons, List.flatten_nil,
      List.append_nil, engSeg_append _ _ _ _ _ (by omega) (by omega), hg,
      List.take_succ_eq_append_getElem (show n < vals.length by omega), List.sum_append, List.sum_cons, List.sum_nil]
    congr 1; omega

theorem zipIdx_replicate_map {A B : Type} (n : Nat) (a : A) (f : A × Nat → B) :
    (List.replicate n a).zipIdx.map f = (List.range n).map fun r => f (a, r) := by
  apply List.ext_getElem?
  intro i
  simp only [List.getElem?_map, List.getElem?_zipIdx, List.getElem?_replicate]
  by_cases h : i < n
  · simp [h]
  · simp [h]

/-- **C27, one call.** If the generators of all `W` ranks are in step, at value `c` of at most `nmax`, then after `next_n` on all ranks they are
again all in step, at the same value for every distribution of the requests over the ranks; the outputs, concatenated by rank, are the next values
of the engine (in the sequential mode every rank gets all of them). -/
theorem C27_call {E : Type} (next : E → E × Nat) (e : E) (nmax c : Nat) (vals : List Nat) (seq : Bool) (hm : nmax < 2 ^ 64) (hc : c ≤ nmax)
    (hs : vals.sum < 2 ^ 64) :
    (ipgCall next (List.replicate vals.length (ipgAt next e nmax c)) vals seq).2 = List.replicate vals.length (ipgAt next e nmax (min (c + vals.sum) nmax)) ∧
    (seq = false → (ipgCall next (List.replicate vals.length (ipgAt next e nmax c)) vals seq).1.flatten = engSeg next e c (min (c + vals.sum) nmax)) ∧
    (seq = true → (ipgCall next (List.replicate vals.length (ipgAt next e nmax c)) vals seq).1
      = List.replicate vals.length (engSeg next e c (min (c + vals.sum) nmax))) := by
  unfold ipgCall
  simp only [zipIdx_replicate_map, List.map_map]
  cases seq with
  | false =>
    have hr : ∀ r, (ipgAt next e nmax c).nextN next vals false r = _ := fun r => ipg_par next e nmax c r vals hm hc hs
    refine ⟨?_, fun _ => ?_, fun h => absurd h (by simp)⟩
    · apply List.ext_getElem?
      intro i
      simp only [List.getElem?_map, hr]
      by_cases h : i < vals.length <;> simp [h]
    · simp only [Function.comp_def, hr]
      rw [ipg_flat next e nmax c hc vals vals.length le_rfl, List.take_length]
  | true =>
    have hr : ∀ r, (ipgAt next e nmax c).nextN next vals true r = _ := fun r => by
      show (ipgAt next e nmax c).nextSeq next (accU64 vals) = _
      rw [accU64_eq, Nat.mod_eq_of_lt hs, ipg_seq next e nmax c _ hm hc]
    refine ⟨?_, fun h => absurd h (by simp), fun _ => ?_⟩ <;>
    · apply List.ext_getElem?
      intro i
      simp only [List.getElem?_map, hr]
      by_cases h : i < vals.length <;> simp [h]

theorem ipgHist_spec {E : Type} (next : E → E × Nat) (e : E) (nmax : Nat) (hm : nmax < 2 ^ 64) (W : Nat) (calls : List (List Nat × Bool))
    (hw : ∀ q ∈ calls, q.1.length = W ∧ q.1.sum < 2 ^ 64) (c : Nat) (hc : c ≤ nmax) :
    (ipgHist next calls (List.replicate W (ipgAt next e nmax c))).2 = List.replicate W (ipgAt next e nmax (ipgCount nmax calls c)) ∧
    (ipgHist next calls (List.replicate W (ipgAt next e nmax c))).1.length = calls.length ∧
    (∀ (k : Nat) vals seq out, calls[k]? = some (vals, seq) → (ipgHist next calls (List.replicate W (ipgAt next e nmax c))).1[k]? = some out →
      (seq = false → out.flatten = engSeg next e (ipgCount nmax (calls.take k) c) (ipgCount nmax (calls.take (k + 1)) c)) ∧
      (seq = true → out = List.replicate W (engSeg next e (ipgCount nmax (calls.take k) c) (ipgCount nmax (calls.take (k + 1)) c)))) ∧
    c ≤ ipgCount nmax calls c ∧ ipgCount nmax calls c ≤ nmax := by
  induction calls generalizing c with
  | nil => exact ⟨rfl, rfl, by simp, le_rfl, hc⟩
  | cons q calls ih =>
    obtain ⟨vals, seq⟩ := q
    obtain ⟨hl, hs⟩ := hw _ List.mem_cons_self
    simp only at hl hs
    obtain ⟨a1, a2, a3⟩ := C27_call next e nmax c vals seq hm hc hs
    rw [hl] at a1 a2 a3
    obtain ⟨b1, b2, b3, b4, b5⟩ := ih (fun q hq => hw q (List.mem_cons_of_mem _ hq)) (min (c + vals.sum) nmax) (by omega)
    simp only [ipgHist]
    rw [a1]
    refine ⟨b1, by simp only [List.length_cons, b2], ?_, by simp only [ipgCount]; omega, b5⟩
    intro k vals' seq' out hk ho
    cases k with
    | zero =>
      simp only [List.getElem?_cons_zero, Option.some.injEq, Prod.mk.injEq] at hk ho
      obtain ⟨rfl, rfl⟩ := hk
      subst ho
      exact ⟨a2, a3⟩
    | succ k =>
      simp only [List.getElem?_cons_succ] at hk ho
      exact b3 k vals' seq' out hk ho

/-- **C27, histories.** Generators built alike on `W` ranks: after every history of calls (with any requests per rank) all ranks have the same
state, they are done exactly when `nmax` values were produced, `all_ranks_are_in_sync` is true, and the outputs of each call, concatenated by rank,
are those of one rank making the same history alone with the total requests (in sequential mode every rank gets exactly those). -/
theorem C27_history {E : Type} (next : E → E × Nat) (e : E) (nmax : Nat) (hm : nmax < 2 ^ 64) (W : Nat) (calls : List (List Nat × Bool))
    (hw : ∀ q ∈ calls, q.1.length = W ∧ q.1.sum < 2 ^ 64) :
    let many := ipgHist next calls (List.replicate W (IPG.mk' e nmax))
    let alone := ipgHist next (calls.map fun q => ([q.1.sum], q.2)) [IPG.mk' e nmax]
    (∀ g ∈ many.2, ∀ g' ∈ alone.2, g = g') ∧
    (∀ g ∈ many.2, g.done = true ↔ g.cur = nmax) ∧
    (∀ r < W, ipgInSync next many.2 r = true) ∧
    many.1.length = calls.length ∧
    ∀ (k : Nat) vals seq out out1, calls[k]? = some (vals, seq) → many.1[k]? = some out → alone.1[k]? = some out1 →
      (seq = false → out.flatten = out1.flatten) ∧ (seq = true → ∀ o ∈ out, [o] = out1) := by
  intro many alone
  have h0 : IPG.mk' e nmax = ipgAt next e nmax 0 := by
    unfold IPG.mk' ipgAt
    congr 1
    exact decide_eq_decide.2 eq_comm
  have hcnt : ∀ (l : List (List Nat × Bool)) c, ipgCount nmax (l.map fun q => ([q.1.sum], q.2)) c = ipgCount nmax l c := by
    intro l
    induction l with
    | nil => intro c; rfl
    | cons q l ih => intro c; simp only [List.map_cons, ipgCount, List.sum_cons, List.sum_nil, Nat.add_zero]; exact ih _
  obtain ⟨a1, a2, a3, a4, a5⟩ := ipgHist_spec next e nmax hm W calls hw 0 (by omega)
  obtain ⟨b1, b2, b3, b4, b5⟩ := ipgHist_spec next e nmax hm 1 (calls.map fun q => ([q.1.sum], q.2)) (by
    intro q hq
    obtain ⟨q', hq', rfl⟩ := List.mem_map.1 hq
    exact ⟨rfl, by simpa using (hw q' hq').2⟩) 0 (by omega)
  have e1 : many = ipgHist next calls (List.replicate W (ipgAt next e nmax 0)) := by rw [← h0]
  have e2 : alone = ipgHist next (calls.map fun q => ([q.1.sum], q.2)) (List.replicate 1 (ipgAt next e nmax 0)) := by rw [← h0]; rfl
  rw [← e1] at a1 a2 a3
  rw [← e2] at b1 b2 b3
  rw [hcnt] at b1
  refine ⟨fun g hg g' hg' => ?_, fun g hg => ?_, fun r hr => ?_, a2, ?_⟩
  · rw [a1] at hg; rw [b1] at hg'
    rw [List.eq_of_mem_replicate hg, List.eq_of_mem_replicate hg']
  · rw [a1] at hg
    rw [List.eq_of_mem_replicate hg]
    simp [ipgAt]
  · rw [a1]
    unfold ipgInSync
    rw [List.all_eq_true]
    intro v hv
    obtain ⟨g, hg, rfl⟩ := List.mem_map.1 hv
    rw [List.eq_of_mem_replicate hg]
    simp [hr]
  · intro k vals seq out out1 hk ho ho1
    obtain ⟨c1, c2⟩ := a3 k vals seq out hk ho
    obtain ⟨d1, d2⟩ := b3 k [vals.sum] seq out1 (by rw [List.getElem?_map, hk]; rfl) ho1
    rw [← List.map_take, ← List.map_take, hcnt, hcnt] at d1 d2
    refine ⟨fun hs => by rw [c1 hs, d1 hs], fun hs o hmem => ?_⟩
    rw [c2 hs] at hmem
    rw [d2 hs, List.eq_of_mem_replicate hmem]
    rfl

/-- **C27, whole run.** The outputs of a history of parallel calls, concatenated over calls and ranks, are the first values of the engine, as
many as were requested in total but at most `nmax`. -/
theorem C27_prefix {E : Type} (next : E → E × Nat) (e : E) (nmax : Nat) (hm : nmax < 2 ^ 64) (W : Nat) (calls : List (List Nat × Bool))
    (hw : ∀ q ∈ calls, q.1.length = W ∧ q.1.sum < 2 ^ 64 ∧ q.2 = false) :
    ((ipgHist next calls (List.replicate W (IPG.mk' e nmax))).1.map List.flatten).flatten
      = (List.range (min ((calls.map fun q => q.1.sum).sum) nmax)).map (engNth next e) := by
  have h0 : IPG.mk' e nmax = ipgAt next e nmax 0 := by
    unfold IPG.mk' ipgAt
    congr 1
    exact decide_eq_decide.2 eq_comm
  have key : ∀ (calls : List (List Nat × Bool)), (∀ q ∈ calls, q.1.length = W ∧ q.1.sum < 2 ^ 64 ∧ q.2 = false) → ∀ c ≤ nmax,
      ((ipgHist next calls (List.replicate W (ipgAt next e nmax c))).1.map List.flatten).flatten
        = engSeg next e c (min (c + (calls.map fun q => q.1.sum).sum) nmax) := by
    intro calls
    induction calls with
    | nil => intro _ c hc; simp [ipgHist, engSeg, hc]
    | cons q calls ih =>
      intro hw c hc
      obtain ⟨vals, seq⟩ := q
      obtain ⟨hl, hs, hq⟩ := hw _ List.mem_cons_self
      simp only at hl hs hq
      obtain ⟨a1, a2, -⟩ := C27_call next e nmax c vals seq hm hc hs
      rw [hl] at a1 a2
      simp only [ipgHist, List.map_cons, List.flatten_cons, List.sum_cons]
      rw [a1, a2 hq, ih (fun q hq => hw q (List.mem_cons_of_mem _ hq)) _ (by omega), engSeg_append _ _ _ _ _ (by omega) (by omega)]
      congr 1; omega
  rw [h0, key calls hw 0 (by omega)]
  unfold engSeg
  rw [Nat.zero_add, Nat.sub_zero, List.range_eq_range']

/-- A small engine, three ranks, a limit reached in the middle of the second call. -/
example : (ipgHist (fun e => (e + 1, e * e)) [([2, 0, 3], false), ([1, 4, 4], false), ([1, 1, 1], true)] (List.replicate 3 (IPG.mk' 10 9))).1
    = [[[100, 121], [], [144, 169, 196]], [[225], [256, 289, 324], []], [[], [], []]] := by decide +kernel

end Shamrock
