import Verif.Model.Res
import Verif.Model.Search
import Verif.Model.Scan
import Verif.Model.Patch
/-! Patch data fields (`PatchDataField`) and layers (`PatchDataLayer`).

A field is its flat buffer of values and the number of values per object. All values live in one type `α` (the C++ layer
holds fields of several value types in a variant; a type mismatch throws, this is not modelled). Fresh storage contains
arbitrary values (`garbage`). Memory exhaustion is not modelled. -/
namespace Shamrock

/-- `PatchDataField<T>`, /repo/src/shamrock/include/shamrock/patch/PatchDataField.hpp:81-85. -/
structure PField (α : Type) where
  nvar : Nat
  buf : List α
  deriving DecidableEq, Repr

/-- `shambase::narrow_or_throw<u32>`. -/
def narrow32 (n : Nat) : Res Nat := if n < 2 ^ 32 then .ok n else .throws

/-- `get_obj_cnt`, PatchDataField.hpp:175-184. -/
def PField.objCnt {α} (f : PField α) : Res Nat := if f.buf.length % f.nvar ≠ 0 then .throws else narrow32 (f.buf.length / f.nvar)

/-- `get_val_cnt`, PatchDataField.hpp:195-197. -/
def PField.valCnt {α} (f : PField α) : Res Nat := narrow32 f.buf.length

/-- `DeviceBuffer::resize` keeping data, /repo/src/shambackends/include/shambackends/DeviceBuffer.hpp:1103-1170. -/
def bufResize {α} (garbage : Nat → α) (n : Nat) (l : List α) : List α :=
  l.take n ++ (List.range (n - l.length)).map garbage

/-- `resize`, PatchDataField.hpp:540-542. -/
def PField.resize {α} (garbage : Nat → α) (n : Nat) (f : PField α) : Res (PField α) := do
  let m ← narrow32 (n * f.nvar)
  pure { f with buf := bufResize garbage m f.buf }

/-- `expand`, PatchDataField.hpp:551-554 (the object count is a `u32`). -/
def PField.expand {α} (garbage : Nat → α) (add : Nat) (f : PField α) : Res (PField α) := do
  let c ← f.objCnt
  f.resize garbage ((c + add) % 2 ^ 32)

/-- `shrink`, PatchDataField.hpp:556-566. -/
def PField.shrink {α} (garbage : Nat → α) (rem : Nat) (f : PField α) : Res (PField α) := do
  let c ← f.objCnt
  if c < rem then .throws else f.resize garbage (c - rem)

/-- The elementary write `w` (component `w % nvar` of work item `w / nvar`) of the kernel of
`shamalgs::primitives::append_subset_to`, /repo/src/shamalgs/src/primitives/append_subset_to.cpp:57-75, and of `index_remap` /
`index_remap_nvar`, /repo/src/shamalgs/src/details/algorithm/algorithm.cpp:75-132 (with `start = 0`). -/
def subsetWrite {α} (src : List α) (idxs : List Nat) (nvar start : Nat) (dst : List α) (w : Nat) : Option (List α) := do
  let id ← idxs[w / nvar]?
  let v ← src[u32add (u32mul id nvar) (w % nvar)]?
  wr dst (start + w) v

/-- The launch: the elementary writes in the order `order`. -/
def subsetLaunch {α} (src : List α) (idxs : List Nat) (nvar start : Nat) (order : List Nat) (dst : List α) : Option (List α) :=
  order.foldlM (subsetWrite src idxs nvar start) dst

/-- `PatchDataField::append_subset_to(idxs_buf, sz, pfield)`, /repo/src/shamrock/src/patch/PatchDataField.cpp:126-147. -/
def PField.appendSubset {α} (garbage : Nat → α) (order : Nat → List Nat) (f : PField α) (idxs : List Nat) (sz : Nat)
    (pf : PField α) : Res (PField α) :=
  if pf.nvar ≠ f.nvar then .throws
  else if sz ≠ idxs.length then .throws
  else if 0 < sz then do
    let start ← pf.valCnt
    let pf' ← pf.expand garbage sz
    let b ← Res.ofOpt (subsetLaunch f.buf idxs f.nvar start (order (sz * f.nvar)) pf'.buf)
    pure { pf' with buf := b }
  else pure pf

/-- `PatchDataField::insert`, PatchDataField.cpp:228-231 (`DeviceBuffer::append`; appending a field to itself throws, not
modelled: the two fields are distinct). -/
def PField.insert {α} (f f2 : PField α) : PField α := { f with buf := f.buf ++ f2.buf }

/-- `PatchDataField::index_remap_resize`, PatchDataField.cpp:233-250. -/
def PField.indexRemapResize {α} (garbage : Nat → α) (order : Nat → List Nat) (f : PField α) (map : List Nat) (len : Nat) :
    Res (PField α) :=
  if f.buf.length = 0 then pure f
  else do
    let b ← Res.ofOpt (subsetLaunch f.buf map f.nvar 0 (order (len * f.nvar)) ((List.range (len * f.nvar)).map garbage))
    pure { f with buf := b }

/-- `PatchDataField::index_remap`, PatchDataField.cpp:252-264. -/
def PField.indexRemap {α} (garbage : Nat → α) (order : Nat → List Nat) (f : PField α) (map : List Nat) (len : Nat) :
    Res (PField α) := do
  let c ← f.objCnt
  if len ≠ c then .throws else f.indexRemapResize garbage order map len

/-- Elementary write of the kernel of `permut_vars`, PatchDataField.cpp:283-296. -/
def permutWrite {α} (src : List α) (permut : List Nat) (nvar : Nat) (dst : List α) (i : Nat) : Option (List α) := do
  let nv ← permut[i % nvar]?
  let v ← src[i]?
  wr dst (i / nvar * nvar + nv) v

/-- `PatchDataField::permut_vars`, PatchDataField.cpp:266-298. -/
def PField.permutVars {α} (order : Nat → List Nat) (f : PField α) (permut : List Nat) : Res (PField α) :=
  if permut.length ≠ f.nvar then .throws
  else do
    let n ← f.valCnt
    let b ← Res.ofOpt ((order n).foldlM (permutWrite f.buf permut f.nvar) f.buf)
    pure { f with buf := b }

/-- Write of the flag kernel of `remove_ids`, PatchDataField.cpp:322-330. -/
def flagWrite (ids : List Nat) (flags : List W32) (i : Nat) : Option (List W32) := do
  let id ← ids[i]?
  wr flags id 0

/-- `PatchDataField::remove_ids`, PatchDataField.cpp:300-369. -/
def PField.removeIds {α} (garbage : Nat → α) (garbageIdx : Nat → Nat) (order : Nat → List Nat) (f : PField α) (ids : List Nat)
    (len : Nat) : Res (PField α) := do
  let nobj ← f.objCnt
  if nobj < len then .throws
  else if len = 0 then pure f
  else do
    let flags ← Res.ofOpt ((order len).foldlM (flagWrite ids) (List.replicate nobj 1))
    let keep ← Res.ofOpt (streamCompact flags garbageIdx (order nobj))
    if keep.length ≠ nobj - len then .throws
    else f.indexRemapResize garbage order keep (nobj - len)

/-- `PatchDataField::extract_elements`, PatchDataField.cpp:99-109 (`to` is another field; passing the field itself throws, not
modelled). Returns the remaining field and the grown one. -/
def PField.extractElements {α} (garbage : Nat → α) (garbageIdx : Nat → Nat) (order : Nat → List Nat) (f : PField α)
    (idxs : List Nat) (to : PField α) : Res (PField α × PField α) := do
  let to' ← f.appendSubset garbage order idxs idxs.length to
  let f' ← f.removeIds garbage garbageIdx order idxs idxs.length
  pure (f', to')

/-- `fast_extract_ptr` inside the loop of `extract_element`, PatchDataField.cpp:48-56 and 80-83, for component `i`;
state: the two buffers `(acc_from, acc_to)`. -/
def extractStep {α} (idxVal idxOut fromSz : Nat) (st : List α × List α) (i : Nat) : Option (List α × List α) := do
  let end_ ← st.1[fromSz - 1]?
  let extr ← st.1[idxVal + i]?
  let from' ← wr st.1 (idxVal + i) end_
  let to' ← wr st.2 (idxOut + i) extr
  pure (from', to')

/-- `PatchDataField::extract_element`, PatchDataField.cpp:46-97: the components are visited from `nvar - 1` down to 0. -/
def PField.extractElement {α} (garbage : Nat → α) (f : PField α) (pidx : Nat) (to : PField α) :
    Res (PField α × PField α) := do
  let idxOut ← to.valCnt
  let fromSz ← f.valCnt
  let to1 ← to.expand garbage 1
  let st ← Res.ofOpt ((List.range f.nvar).reverse.foldlM (extractStep (u32mul pidx f.nvar) idxOut fromSz) (f.buf, to1.buf))
  let f' ← ({ f with buf := st.1 } : PField α).shrink garbage 1
  pure (f', { to1 with buf := st.2 })

/-- `get_ids_vec_where`, PatchDataField.hpp:306-321, with a condition on the first value of the object. -/
def PField.idsWhere {α} (f : PField α) (cd : α → Bool) : Res (List Nat) := do
  let c ← f.objCnt
  Res.ofOpt ((List.range c).foldlM (fun (acc : List Nat) i => do
    let v ← f.buf[u32mul i f.nvar]?
    pure (if cd v then acc ++ [i] else acc)) [])

/-! ### Layers -/

/-- `PatchDataLayer`: the list of fields. -/
abbrev PLayer (α : Type) := List (PField α)

/-- Field by field operation with a second layer (`out_pdat.fields[idx]` is out of bounds if it has fewer fields),
/repo/src/shamrock/src/patch/PatchDataLayer.cpp:60-125. The schedule may differ for each field. -/
def PLayer.zipM {α β : Type} (op : Nat → PField α → PField α → Res β) : Nat → PLayer α → PLayer α → Res (List β)
  | _, [], _ => pure []
  | _, _ :: _, [] => .ub
  | k, f :: r, g :: s => do
    let x ← op k f g
    let xs ← PLayer.zipM op (k + 1) r s
    pure (x :: xs)

/-- `PatchDataLayer::append_subset_to`, PatchDataLayer.cpp:217-262. -/
def PLayer.appendSubset {α} (garbage : Nat → α) (order : Nat → Nat → List Nat) (l : PLayer α) (idxs : List Nat)
    (out : PLayer α) : Res (PLayer α) :=
  PLayer.zipM (fun k f g => f.appendSubset garbage (order k) idxs idxs.length g) 0 l out

/-- `PatchDataLayer::insert_elements`, PatchDataLayer.cpp:105-126. -/
def PLayer.insertElements {α} (l : PLayer α) (p : PLayer α) : Res (PLayer α) :=
  PLayer.zipM (fun _ f g => pure (f.insert g)) 0 l p

/-- `PatchDataLayer::extract_elements`, PatchDataLayer.cpp:82-103. -/
def PLayer.extractElements {α} (garbage : Nat → α) (garbageIdx : Nat → Nat) (order : Nat → Nat → List Nat) (l : PLayer α)
    (idxs : List Nat) (out : PLayer α) : Res (PLayer α × PLayer α) := do
  let r ← PLayer.zipM (fun k f g => f.extractElements garbage garbageIdx (order k) idxs g) 0 l out
  pure (r.map (·.1), r.map (·.2))

/-- `Patch::is_in_patch_converted`, /repo/src/shamrock/include/shamrock/patch/Patch.hpp:209-215 (no NaN: the components are
linearly ordered). -/
def inPatchConverted {F : Type} [LinearOrder F] (v lo hi : V3 F) : Bool :=
  decide (lo.x ≤ v.x ∧ v.x < hi.x ∧ lo.y ≤ v.y ∧ v.y < hi.y ∧ lo.z ≤ v.z ∧ v.z < hi.z)

/-- `check_err_range`, PatchDataField.hpp:733-770: throws if some value fails the test (only for one value per object). -/
def PField.checkErrRange {α} (f : PField α) (cd : α → Bool) : Res Unit := do
  let c ← f.objCnt
  if c = 0 then pure ()
  else if f.nvar ≠ 1 then .throws
  else if f.buf.all cd then pure () else .throws

/-- Component wise `sham::min` / `sham::max` of vectors. -/
def V3.min {F : Type} [LinearOrder F] (a b : V3 F) : V3 F := ⟨Min.min a.x b.x, Min.min a.y b.y, Min.min a.z b.z⟩
def V3.max {F : Type} [LinearOrder F] (a b : V3 F) : V3 F := ⟨Max.max a.x b.x, Max.max a.y b.y, Max.max a.z b.z⟩

/-- The check of `split_patchdata`, PatchDataLayer.cpp:452-490: if the ids found do not add up to the object count, the
positions are tested against the hull of the boxes. -/
def splitCheck {α F : Type} [LinearOrder F] (pos : α → V3 F) (main : PField α) (boxes : List (V3 F × V3 F)) (b0 : V3 F × V3 F)
    (idx : List (List Nat)) : Res Unit := do
  let c ← main.objCnt
  if c ≠ ((idx.map List.length).foldl (· + ·) 0) % 2 ^ 32 then
    main.checkErrRange (fun v => inPatchConverted (pos v) (boxes.foldl (fun m b => m.min b.1) b0.1)
      (boxes.foldl (fun m b => m.max b.2) b0.2))
  else pure ()

/-- `PatchDataLayer::split_patchdata`, PatchDataLayer.cpp:425-514: `boxes` are the (min_box[c], max_box[c]) of the 8 children,
`outs` the 8 destination layers, `pos` reads a position out of a value of the main field. -/
def PLayer.splitPatchdata {α F : Type} [LinearOrder F] (pos : α → V3 F) (garbage : Nat → α)
    (order : Nat → Nat → Nat → List Nat) (l : PLayer α) (outs : List (PLayer α)) (boxes : List (V3 F × V3 F)) :
    Res (List (PLayer α)) :=
  match l, boxes with
  | main :: _, b0 :: _ => do
    let idx ← boxes.mapM (fun b => main.idsWhere (fun v => inPatchConverted (pos v) b.1 b.2))
    splitCheck pos main boxes b0 idx
    (List.range outs.length).mapM (fun k => do
      let i ← Res.ofOpt idx[k]?
      let o ← Res.ofOpt outs[k]?
      PLayer.appendSubset garbage (order k) l i o)
  | _, _ => .ub

end Shamrock
