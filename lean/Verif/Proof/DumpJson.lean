import Verif.Model.Dump
import Verif.Props.PatchTree
import Verif.Props.Gather
/-! JSON round trips of the dump. -/
namespace Shamrock

/-- A vector of `u64`. -/
def V3.Rep (v : V3 Nat) : Prop := v.x < 2 ^ 64 ∧ v.y < 2 ^ 64 ∧ v.z < 2 ^ 64
/-- The members of the patch are values of their C++ types. -/
structure Patch.Rep (p : Patch) : Prop where
  id : p.idPatch < 2 ^ 64
  pack : p.packNodeIndex < 2 ^ 64
  load : p.loadValue < 2 ^ 64
  cmin : p.coord.cmin.Rep
  cmax : p.coord.cmax.Rep
  owner : p.nodeOwnerId < 2 ^ 32
/-- The members of the node are values of their C++ types. -/
structure PTNode.Rep (n : PTNode) : Prop where
  linked : n.linked < 2 ^ 64
  load : n.load < 2 ^ 64
  level : n.level < 2 ^ 32
  parent : n.parent < 2 ^ 64
  len : n.childs.length = 8
  childs : ∀ c ∈ n.childs, c < 2 ^ 64
  cmin : n.coord.cmin.Rep
  cmax : n.coord.cmax.Rep

theorem u64_jNat {n : Nat} (h : n < 2 ^ 64) : (jNat n).u64 = .ok n := by
  unfold jNat JVal.u64
  simp only
  rw [BitVec.toNat_ofNat, Nat.mod_eq_of_lt h]

theorem u32_jNat {n : Nat} (h : n < 2 ^ 32) : (jNat n).u32 = .ok n := by
  unfold jNat JVal.u32
  simp only
  rw [BitVec.toNat_ofNat, Nat.mod_eq_of_lt (Nat.lt_trans h (by decide)), Nat.mod_eq_of_lt h]

theorem jall_map {T S : Type} (f : JVal → Res T) (g : S → JVal) (k : S → T) : ∀ l : List S, (∀ x ∈ l, f (g x) = .ok (k x)) → jall f (l.map g) = .ok (l.map k) := by
  intro l
  induction l with
  | nil => intro _; rfl
  | cons x l ih =>
    intro h
    rw [List.map_cons, jall, h x List.mem_cons_self]
    simp only [Res.bind]
    rw [ih fun y hy => h y (List.mem_cons_of_mem _ hy)]
    rfl

theorem u64s_jNats {l : List Nat} (h : ∀ x ∈ l, x < 2 ^ 64) : (jNats l).u64s = .ok l := by
  unfold jNats JVal.u64s JVal.elems
  simp only [Res.bind]
  rw [jall_map JVal.u64 jNat id l fun x hx => u64_jNat (h x hx), List.map_id]

theorem v3_jV3 {v : V3 Nat} (h : v.Rep) : (jV3 v).v3 = .ok v := by
  obtain ⟨a, b, c⟩ := h
  unfold jV3 jNats JVal.v3 JVal.elems
  simp only [List.map_cons, List.map_nil, Res.bind]
  rw [u64_jNat a, u64_jNat b, u64_jNat c]

theorem at_cons_eq (k : String) (v : JVal) (l : List (String × JVal)) : JVal.at k (.obj ((k, v) :: l)) = .ok v := by
  unfold JVal.at
  simp only [List.find?_cons, beq_self_eq_true]

theorem at_cons_ne {k k' : String} (h : (k' == k) = false) (v : JVal) (l : List (String × JVal)) : JVal.at k (.obj ((k', v) :: l)) = JVal.at k (.obj l) := by
  unfold JVal.at
  simp only [List.find?_cons, h]

/-- Looks up a key of a literal object. -/
macro "jat" : tactic => `(tactic| (repeat (first | exact at_cons_eq _ _ _ | rw [at_cons_ne (by decide)])))

theorem patch_roundtrip {p : Patch} (h : p.Rep) : Patch.ofJson p.toJson = .ok p := by
  have e1 : p.toJson.at "id_patch" = .ok (jNat p.idPatch) := by unfold Patch.toJson; jat
  have e2 : p.toJson.at "pack_node_index" = .ok (jNat p.packNodeIndex) := by unfold Patch.toJson; jat
  have e3 : p.toJson.at "load_value" = .ok (jNat p.loadValue) := by unfold Patch.toJson; jat
  have e4 : p.toJson.at "coord_min" = .ok (jV3 p.coord.cmin) := by unfold Patch.toJson; jat
  have e5 : p.toJson.at "coord_max" = .ok (jV3 p.coord.cmax) := by unfold Patch.toJson; jat
  have e6 : p.toJson.at "node_owner_id" = .ok (jNat p.nodeOwnerId) := by unfold Patch.toJson; jat
  unfold Patch.ofJson
  rw [e1, e2, e3, e4, e5, e6]
  simp only [Res.bind]
  rw [u64_jNat h.id, u64_jNat h.pack, u64_jNat h.load, v3_jV3 h.cmin, v3_jV3 h.cmax, u32_jNat h.owner]

theorem plist_roundtrip {n : Nat} {g : List Patch} (f : Bool) (hn : n < 2 ^ 64) (hg : ∀ p ∈ g, p.Rep) : plistOfJson (plistToJson n g f) = .ok (n, g, f) := by
  have e1 : (plistToJson n g f).at "_next_patch_id" = .ok (jNat n) := by unfold plistToJson; jat
  have e2 : (plistToJson n g f).at "global" = .ok (.arr (g.map Patch.toJson)) := by unfold plistToJson; jat
  have e3 : (plistToJson n g f).at "is_load_values_up_to_date" = .ok (.bool f) := by unfold plistToJson; jat
  unfold plistOfJson
  rw [e1, e2, e3]
  simp only [Res.bind, JVal.elems, JVal.getBool]
  rw [u64_jNat hn, jall_map Patch.ofJson Patch.toJson id g fun p hp => patch_roundtrip (hg p hp), List.map_id]

theorem arr8_jNats {l : List Nat} (h8 : l.length = 8) (h : ∀ c ∈ l, c < 2 ^ 64) : (jNats l).arr8 = .ok l := by
  unfold jNats JVal.arr8 JVal.elems
  simp only [Res.bind]
  rw [if_neg (by rw [List.length_map]; omega), List.take_of_length_le (by rw [List.length_map]; omega), jall_map JVal.u64 jNat id l fun x hx => u64_jNat (h x hx), List.map_id]

theorem node_roundtrip {n : PTNode} (h : n.Rep) : PTNode.ofJson n.toJson = .ok n := by
  have e1 : n.toJson.at "linked_patchid" = .ok (jNat n.linked) := by unfold PTNode.toJson; jat
  have e2 : n.toJson.at "load_value" = .ok (jNat n.load) := by unfold PTNode.toJson; jat
  have e3 : ∃ t, n.toJson.at "tree_node" = .ok t ∧ t.at "level" = .ok (jNat n.level) ∧ t.at "parent_nid" = .ok (jNat n.parent) ∧
      t.at "childs_nid" = .ok (jNats n.childs) ∧ t.at "is_leaf" = .ok (.bool n.isLeaf) ∧ t.at "child_are_all_leafs" = .ok (.bool n.allLeafs) := by
    refine ⟨.obj [("level", jNat n.level), ("parent_nid", jNat n.parent), ("childs_nid", jNats n.childs), ("is_leaf", .bool n.isLeaf),
      ("child_are_all_leafs", .bool n.allLeafs)], ?_, ?_, ?_, ?_, ?_, ?_⟩
    · unfold PTNode.toJson; jat
    all_goals jat
  have e4 : ∃ t, n.toJson.at "patch_coord" = .ok t ∧ t.at "min" = .ok (jV3 n.coord.cmin) ∧ t.at "max" = .ok (jV3 n.coord.cmax) := by
    refine ⟨.obj [("min", jV3 n.coord.cmin), ("max", jV3 n.coord.cmax)], ?_, ?_, ?_⟩
    · unfold PTNode.toJson; jat
    all_goals jat
  obtain ⟨t, t0, t1, t2, t3, t4, t5⟩ := e3
  obtain ⟨c, c0, c1, c2⟩ := e4
  unfold PTNode.ofJson
  rw [e1, e2, t0, c0]
  simp only [Res.bind]
  rw [u64_jNat h.linked, u64_jNat h.load, t1, t2, t3, t4, t5, c1, c2]
  simp only [JVal.getBool]
  rw [u32_jNat h.level, u64_jNat h.parent, arr8_jNats h.len h.childs, v3_jV3 h.cmin, v3_jV3 h.cmax]

/-- The orders enumerate the containers of the tree. -/
structure TreeOrd.Ok (o : TreeOrd) (t : PTree) : Prop where
  keys : ∀ k, k ∈ o.keys ↔ ∃ n, t.tree k = some n
  nodup : o.keys.Nodup
  leafs : Enumerates o.leafs t.leafKey
  polks : Enumerates o.polks t.polk
  roots : Enumerates o.roots t.roots

/-- The members of the tree are values of their C++ types. -/
structure PTree.Rep (t : PTree) : Prop where
  next : t.nextId < 2 ^ 64
  nodes : ∀ k n, t.tree k = some n → k < 2 ^ 64 ∧ n.Rep
  leafs : ∀ k, t.leafKey k = true → k < 2 ^ 64
  polks : ∀ k, t.polk k = true → k < 2 ^ 64
  roots : ∀ k, t.roots k = true → k < 2 ^ 64

theorem enum_fun {l : List Nat} {f : Nat → Bool} (h : Enumerates l f) : (fun x => decide (x ∈ l)) = f := by
  funext x
  have := h x
  cases hf : f x with
  | true => rw [decide_eq_true_iff]; exact this.2 hf
  | false => rw [decide_eq_false_iff_not]; intro hx; rw [this.1 hx] at hf; cases hf

theorem entries_roundtrip (t : PTree) (hr : ∀ k n, t.tree k = some n → k < 2 ^ 64 ∧ n.Rep) : ∀ (ks : List Nat), (∀ k ∈ ks, ∃ n, t.tree k = some n) →
    ∃ es, jall nodeEntry (ks.filterMap fun k => (t.tree k).map fun n => .arr [jNat k, n.toJson]) = .ok es ∧ ∀ x, mfind es x = if x ∈ ks then t.tree x else none := by
  intro ks
  induction ks with
  | nil => intro _; exact ⟨[], rfl, fun x => by simp [mfind]⟩
  | cons k ks ih =>
    intro h
    obtain ⟨es, h1, h2⟩ := ih fun y hy => h y (List.mem_cons_of_mem _ hy)
    obtain ⟨n, hn⟩ := h k List.mem_cons_self
    refine ⟨(k, n) :: es, ?_, ?_⟩
    · rw [List.filterMap_cons]
      simp only [hn, Option.map_some]
      rw [jall]
      have : nodeEntry (.arr [jNat k, n.toJson]) = .ok (k, n) := by
        unfold nodeEntry JVal.elems
        simp only [Res.bind]
        rw [u64_jNat (hr k n hn).1, node_roundtrip (hr k n hn).2]
      rw [this]
      simp only [Res.bind]
      rw [h1]
    · intro x
      rw [mfind]
      by_cases hx : k = x
      · subst hx
        rw [if_pos rfl, if_pos List.mem_cons_self, hn]
      · rw [if_neg hx, h2]
        by_cases hm : x ∈ ks
        · rw [if_pos hm, if_pos (List.mem_cons_of_mem _ hm)]
        · rw [if_neg hm, if_neg]
          intro hc
          rcases List.mem_cons.1 hc with e | e
          · exact hx e.symm
          · exact hm e

theorem tree_roundtrip {t : PTree} {o : TreeOrd} (ho : o.Ok t) (hr : t.Rep) : PTree.ofJson (t.toJson o) = .ok t := by
  have e1 : (t.toJson o).at "roots_id" = .ok (jNats o.roots) := by unfold PTree.toJson; jat
  have e2 : (t.toJson o).at "tree" = .ok (.arr (o.keys.filterMap fun k => (t.tree k).map fun n => .arr [jNat k, n.toJson])) := by unfold PTree.toJson; jat
  have e3 : (t.toJson o).at "leaf_key" = .ok (jNats o.leafs) := by unfold PTree.toJson; jat
  have e4 : (t.toJson o).at "parent_of_only_leaf_key" = .ok (jNats o.polks) := by unfold PTree.toJson; jat
  have e5 : (t.toJson o).at "next_id" = .ok (jNat t.nextId) := by unfold PTree.toJson; jat
  obtain ⟨es, h1, h2⟩ := entries_roundtrip t hr.nodes o.keys fun k hk => (ho.keys k).1 hk
  unfold PTree.ofJson
  rw [e1, e2, e3, e4, e5]
  simp only [Res.bind, JVal.elems]
  rw [u64s_jNats fun x hx => hr.roots x ((ho.roots x).1 hx), u64s_jNats fun x hx => hr.leafs x ((ho.leafs x).1 hx),
    u64s_jNats fun x hx => hr.polks x ((ho.polks x).1 hx), u64_jNat hr.next, h1]
  simp only
  rw [enum_fun ho.leafs, enum_fun ho.polks, enum_fun ho.roots]
  have : (fun x => mfind es x) = t.tree := by
    funext x
    rw [h2]
    by_cases hx : x ∈ o.keys
    · rw [if_pos hx]
    · rw [if_neg hx]
      cases hc : t.tree x with
      | none => rfl
      | some n => exact absurd ((ho.keys x).2 ⟨n, hc⟩) hx
  rw [this]

theorem ftype_roundtrip (t : FTy) (s : String) (h : t.tname = .ok s) : FTy.ofName s = .ok t := by
  cases t <;> simp only [FTy.tname, Res.ok.injEq, reduceCtorEq] at h <;> subst h <;> decide

theorem layout_roundtrip : ∀ (lay acc : List LField) (l : List JVal), layoutToJson lay = .ok l → (∀ f ∈ lay, f.nvar < 2 ^ 32) →
    ((acc ++ lay).map (·.name)).Nodup → layoutOfJson l acc = .ok (acc ++ lay) := by
  intro lay
  induction lay with
  | nil =>
    intro acc l h _ _
    rw [layoutToJson, Res.ok.injEq] at h
    subst h
    rw [layoutOfJson, List.append_nil]
  | cons f lay ih =>
    intro acc l h hv hn
    rw [layoutToJson] at h
    cases ht : f.ty.tname with
    | throws => rw [ht] at h; cases h
    | ub => rw [ht] at h; cases h
    | ok t =>
      rw [ht] at h
      simp only [Res.bind] at h
      cases hl : layoutToJson lay with
      | throws => rw [hl] at h; cases h
      | ub => rw [hl] at h; cases h
      | ok l' =>
        rw [hl] at h
        simp only [Res.ok.injEq] at h
        subst h
        have e1 : (JVal.obj [("type", .str t), ("nvar", jNat f.nvar), ("field_name", .str f.name)]).at "field_name" = .ok (.str f.name) := by jat
        have e2 : (JVal.obj [("type", .str t), ("nvar", jNat f.nvar), ("field_name", .str f.name)]).at "nvar" = .ok (jNat f.nvar) := by jat
        have e3 : (JVal.obj [("type", .str t), ("nvar", jNat f.nvar), ("field_name", .str f.name)]).at "type" = .ok (.str t) := by jat
        rw [layoutOfJson, e1, e2, e3]
        simp only [Res.bind, JVal.getStr]
        rw [u32_jNat (hv f List.mem_cons_self), ftype_roundtrip f.ty t ht]
        simp only
        have hno : addField acc ⟨f.name, f.ty, f.nvar⟩ = .ok (acc ++ [f]) := by
          unfold addField
          rw [if_neg]
          rw [Bool.not_eq_true, List.any_eq_false]
          intro g hg hc
          rw [beq_iff_eq] at hc
          rw [List.map_append, List.map_cons, List.nodup_append] at hn
          exact hn.2.2 g.name (List.mem_map_of_mem (f := (·.name)) hg) f.name List.mem_cons_self hc
        rw [hno]
        simp only
        rw [ih (acc ++ [f]) l' hl (fun g hg => hv g (List.mem_cons_of_mem _ hg)) (by rw [List.append_assoc]; exact hn), List.append_assoc]
        rfl

theorem simbox_roundtrip {b : SimBoxM} {lay : List LField} {f : LField} {r : List LField} (hl : lay = f :: r) (hf : f.ty = b.ty) (h1 : b.coord.cmin.Rep) (h2 : b.coord.cmax.Rep)
    (j : JVal) (hj : b.toJson = .ok j) : SimBoxM.ofJson lay j = .ok b := by
  unfold SimBoxM.toJson at hj
  cases hn : coordName b.ty with
  | throws => rw [hn] at hj; cases hj
  | ub => rw [hn] at hj; cases hj
  | ok n =>
    rw [hn] at hj
    simp only [Res.bind, Res.ok.injEq] at hj
    have e1 : j.at "patchcoormin" = .ok (jV3 b.coord.cmin) := by rw [← hj]; jat
    have e2 : j.at "patchcoormax" = .ok (jV3 b.coord.cmax) := by rw [← hj]; jat
    have e3 : j.at "coordtype" = .ok (.str n) := by rw [← hj]; jat
    have e4 : j.at "box_min" = .ok b.lower := by rw [← hj]; jat
    have e5 : j.at "box_max" = .ok b.upper := by rw [← hj]; jat
    unfold SimBoxM.ofJson
    rw [e1, e2, e3, e4, e5, hl]
    simp only [Res.bind]
    rw [v3_jV3 h1, v3_jV3 h2]
    simp only [hf, hn, JVal.getStr, if_true]

/-- The members of the metadata are values of their C++ types, the layout is one that `add_field` can make and that can be saved, and the coordinates have the
type of the main field. -/
structure DumpMeta.Ok (m : DumpMeta) : Prop where
  nvar : ∀ f ∈ m.layout, f.nvar < 2 ^ 32
  names : (m.layout.map (·.name)).Nodup
  types : ∀ f ∈ m.layout, f.ty ≠ .i64
  main : ∃ f r, m.layout = f :: r ∧ f.ty = m.simBox.ty
  coordty : ∃ n, coordName m.simBox.ty = .ok n
  cmin : m.simBox.coord.cmin.Rep
  cmax : m.simBox.coord.cmax.Rep
  split : m.critSplit < 2 ^ 64
  merge : m.critMerge < 2 ^ 64

theorem tname_ok (t : FTy) (h : t ≠ .i64) : ∃ s, t.tname = .ok s := by
  cases t <;> first | exact ⟨_, rfl⟩ | exact absurd rfl h

theorem layout_ok : ∀ lay : List LField, (∀ f ∈ lay, f.ty ≠ .i64) → ∃ l, layoutToJson lay = .ok l := by
  intro lay
  induction lay with
  | nil => intro _; exact ⟨[], rfl⟩
  | cons f lay ih =>
    intro h
    obtain ⟨l, hl⟩ := ih fun g hg => h g (List.mem_cons_of_mem _ hg)
    obtain ⟨s, hs⟩ := tname_ok f.ty (h f List.mem_cons_self)
    rw [layoutToJson, hs]
    simp only [Res.bind]
    rw [hl]
    exact ⟨_, rfl⟩

/-- The metadata is restored. -/
theorem meta_roundtrip {α : Type} {m : DumpMeta} (hm : m.Ok) {o : TreeOrd} {s : Sched α} (ho : o.Ok s.tree) (ht : s.tree.Rep) (hn : s.nextPid < 2 ^ 64) (hg : ∀ p ∈ s.global, p.Rep) :
    ∃ j, metaToJson o m s = .ok j ∧ metaOfJson j = .ok (m, s.tree, s.nextPid, s.global, s.fresh) := by
  obtain ⟨l, hl⟩ := layout_ok m.layout hm.types
  obtain ⟨n, hcn⟩ := hm.coordty
  obtain ⟨f, r, hf1, hf2⟩ := hm.main
  obtain ⟨sb, hsb⟩ : ∃ sb, m.simBox.toJson = .ok sb := by unfold SimBoxM.toJson; rw [hcn]; exact ⟨_, rfl⟩
  obtain ⟨j, hj⟩ : ∃ j, j = JVal.obj [("patchtree", s.tree.toJson o), ("patchlist", plistToJson s.nextPid s.global s.fresh), ("patchdata_layout", .arr l), ("sim_box", sb),
    ("crit_patch_split", jNat m.critSplit), ("crit_patch_merge", jNat m.critMerge), ("synchronized_data", m.sync)] := ⟨_, rfl⟩
  refine ⟨j, ?_, ?_⟩
  · unfold metaToJson
    rw [hsb, hl, hj]; rfl
  · have e1 : j.at "patchtree" = .ok (s.tree.toJson o) := by rw [hj]; jat
    have e2 : j.at "patchlist" = .ok (plistToJson s.nextPid s.global s.fresh) := by rw [hj]; jat
    have e3 : j.at "patchdata_layout" = .ok (.arr l) := by rw [hj]; jat
    have e4 : j.at "sim_box" = .ok sb := by rw [hj]; jat
    have e5 : j.at "crit_patch_split" = .ok (jNat m.critSplit) := by rw [hj]; jat
    have e6 : j.at "crit_patch_merge" = .ok (jNat m.critMerge) := by rw [hj]; jat
    have e7 : j.at "synchronized_data" = .ok m.sync := by rw [hj]; jat
    have hlay := layout_roundtrip m.layout [] l hl hm.nvar hm.names
    rw [List.nil_append] at hlay
    unfold metaOfJson
    rw [e1, e2, e3, e4, e5, e6, e7]
    simp only [Res.bind, JVal.elems]
    rw [hlay, u64_jNat hm.split, u64_jNat hm.merge, plist_roundtrip s.fresh hn hg, tree_roundtrip ho ht]
    simp only
    rw [simbox_roundtrip hf1 hf2 hm.cmin hm.cmax sb hsb]

end Shamrock
