import Verif.Model.Sched
import Verif.Model.Collective
import Verif.Model.LayerSerial
/-! The checkpoint files: /repo/src/shamrock/src/io/ShamrockDump.cpp, /repo/src/shamalgs/include/shamalgs/collective/io.hpp:96-281 and the JSON
conversions of the scheduler. The JSON text (`nlohmann::json::dump`, `parse`) is a pair of parameters of the model, the JSON trees are modelled. -/
namespace Shamrock

/-- A JSON value (`nlohmann::json`); integers are 64 bit. -/
inductive JVal where
  | num (n : BitVec 64)
  | bool (b : Bool)
  | str (s : String)
  | arr (l : List JVal)
  | obj (l : List (String × JVal))

/-- `j.at(key)`: throws if `j` is not an object or has no such key. -/
def JVal.at (k : String) : JVal → Res JVal
  | .obj l => match l.find? (fun p => p.1 == k) with
    | some p => .ok p.2
    | none => .throws
  | _ => .throws

/-- `get<u64>()`; throws on a value that is not a number. -/
def JVal.u64 : JVal → Res Nat
  | .num n => .ok n.toNat
  | _ => .throws

/-- `get<u32>()`: the number is cast. -/
def JVal.u32 : JVal → Res Nat
  | .num n => .ok (n.toNat % 2 ^ 32)
  | _ => .throws

/-- `get<bool>()`. -/
def JVal.getBool : JVal → Res Bool
  | .bool b => .ok b
  | _ => .throws

/-- `get<std::string>()`. -/
def JVal.getStr : JVal → Res String
  | .str s => .ok s
  | _ => .throws

/-- The elements of an array. -/
def JVal.elems : JVal → Res (List JVal)
  | .arr l => .ok l
  | _ => .throws

/-- Element by element conversion; the first failure is thrown. -/
def jall {T : Type} (f : JVal → Res T) : List JVal → Res (List T)
  | [] => .ok []
  | j :: js => (f j).bind fun x => (jall f js).bind fun r => .ok (x :: r)

/-- `get<std::vector<u64>>()` (and `std::unordered_set<u64>` up to the order). -/
def JVal.u64s (j : JVal) : Res (List Nat) := j.elems.bind (jall JVal.u64)

/-- A `u64` as a JSON number. -/
def jNat (n : Nat) : JVal := .num (BitVec.ofNat 64 n)

/-- An array of `u64`. -/
def jNats (l : List Nat) : JVal := .arr (l.map jNat)

/-- `to_json` of `u64_3`, /repo/src/shambackends/include/shambackends/type_convert.hpp:118. -/
def jV3 (v : V3 Nat) : JVal := jNats [v.x, v.y, v.z]

/-- `from_json` of `u64_3`, type_convert.hpp:120-123 (a `std::array<u64, 3>`: further elements are ignored). -/
def JVal.v3 (j : JVal) : Res (V3 Nat) := j.elems.bind fun l => match l with
  | x :: y :: z :: _ => x.u64.bind fun a => y.u64.bind fun b => z.u64.bind fun c => .ok ⟨a, b, c⟩
  | _ => .throws

/-- `to_json` of `Patch`, /repo/src/shamrock/src/scheduler/scheduler_patch_list.cpp:196-213. -/
def Patch.toJson (p : Patch) : JVal := .obj [("id_patch", jNat p.idPatch), ("pack_node_index", jNat p.packNodeIndex), ("load_value", jNat p.loadValue),
  ("coord_min", jV3 p.coord.cmin), ("coord_max", jV3 p.coord.cmax), ("node_owner_id", jNat p.nodeOwnerId)]

/-- `from_json` of `Patch`, scheduler_patch_list.cpp:224-231 (the owner is a `u32`). -/
def Patch.ofJson (j : JVal) : Res Patch :=
  ((j.at "id_patch").bind JVal.u64).bind fun i => ((j.at "pack_node_index").bind JVal.u64).bind fun k => ((j.at "load_value").bind JVal.u64).bind fun l =>
  ((j.at "coord_min").bind JVal.v3).bind fun a => ((j.at "coord_max").bind JVal.v3).bind fun b => ((j.at "node_owner_id").bind JVal.u32).bind fun o =>
  .ok ⟨i, k, l, ⟨a, b⟩, o⟩

/-- `to_json` of `SchedulerPatchList`, scheduler_patch_list.cpp:235-242: the local list is not saved. -/
def plistToJson (next : Nat) (global : List Patch) (fresh : Bool) : JVal :=
  .obj [("_next_patch_id", jNat next), ("global", .arr (global.map Patch.toJson)), ("is_load_values_up_to_date", .bool fresh)]

/-- `from_json` of `SchedulerPatchList`, scheduler_patch_list.cpp:244-249. -/
def plistOfJson (j : JVal) : Res (Nat × List Patch × Bool) :=
  ((j.at "_next_patch_id").bind JVal.u64).bind fun n => (((j.at "global").bind JVal.elems).bind (jall Patch.ofJson)).bind fun g =>
  ((j.at "is_load_values_up_to_date").bind JVal.getBool).bind fun f => .ok (n, g, f)

/-- `to_json` of `PatchTreeNode` and `LinkedTreeNode`, /repo/src/shamrock/include/shamrock/scheduler/PatchTreeNode.hpp:146-155 and 176-188. -/
def PTNode.toJson (n : PTNode) : JVal := .obj [("linked_patchid", jNat n.linked), ("load_value", jNat n.load),
  ("tree_node", .obj [("level", jNat n.level), ("parent_nid", jNat n.parent), ("childs_nid", jNats n.childs), ("is_leaf", .bool n.isLeaf),
    ("child_are_all_leafs", .bool n.allLeafs)]),
  ("patch_coord", .obj [("min", jV3 n.coord.cmin), ("max", jV3 n.coord.cmax)])]

/-- `get<std::array<u64, 8>>()`. -/
def JVal.arr8 (j : JVal) : Res (List Nat) := j.elems.bind fun l => if l.length < 8 then .throws else jall JVal.u64 (l.take 8)

/-- `from_json` of `PatchTreeNode` and `LinkedTreeNode`, PatchTreeNode.hpp:163-169 and 197-203 (the level is a `u32`). -/
def PTNode.ofJson (j : JVal) : Res PTNode :=
  ((j.at "linked_patchid").bind JVal.u64).bind fun lk => ((j.at "load_value").bind JVal.u64).bind fun ld => (j.at "tree_node").bind fun t =>
  ((t.at "level").bind JVal.u32).bind fun lv => ((t.at "parent_nid").bind JVal.u64).bind fun pa => ((t.at "childs_nid").bind JVal.arr8).bind fun ch =>
  ((t.at "is_leaf").bind JVal.getBool).bind fun il => ((t.at "child_are_all_leafs").bind JVal.getBool).bind fun al => (j.at "patch_coord").bind fun pc =>
  ((pc.at "min").bind JVal.v3).bind fun a => ((pc.at "max").bind JVal.v3).bind fun b => .ok ⟨⟨a, b⟩, lv, pa, ch, il, al, lk, ld⟩

/-- The iteration orders of the unordered containers of the patch tree. -/
structure TreeOrd where
  keys : List Nat
  leafs : List Nat
  polks : List Nat
  roots : List Nat

/-- `PatchTree::serialize_patch_metadata`, /repo/src/shamrock/src/scheduler/PatchTree.cpp:326-340: a map with integer keys is an array of pairs. -/
def PTree.toJson (o : TreeOrd) (t : PTree) : JVal := .obj [("roots_id", jNats o.roots),
  ("tree", .arr (o.keys.filterMap fun k => (t.tree k).map fun n => .arr [jNat k, n.toJson])),
  ("leaf_key", jNats o.leafs), ("parent_of_only_leaf_key", jNats o.polks), ("next_id", jNat t.nextId)]

/-- `get<std::pair<u64, PatchTreeNode>>()`. -/
def nodeEntry (j : JVal) : Res (Nat × PTNode) := j.elems.bind fun l => match l with
  | k :: n :: _ => k.u64.bind fun a => (PTNode.ofJson n).bind fun b => .ok (a, b)
  | _ => .throws

/-- `PatchTree::load_json`, PatchTree.cpp:347-354. -/
def PTree.ofJson (j : JVal) : Res PTree :=
  ((j.at "roots_id").bind JVal.u64s).bind fun ro => (((j.at "tree").bind JVal.elems).bind (jall nodeEntry)).bind fun tr =>
  ((j.at "leaf_key").bind JVal.u64s).bind fun lk => ((j.at "parent_of_only_leaf_key").bind JVal.u64s).bind fun pk => ((j.at "next_id").bind JVal.u64).bind fun ni =>
  .ok ⟨fun x => mfind tr x, fun x => decide (x ∈ lk), fun x => decide (x ∈ pk), fun x => decide (x ∈ ro), ni⟩

/-- The types of the fields, /repo/src/shamrock/include/shamrock/legacy/patch/base/enabled_fields.hpp:23-41. -/
inductive FTy where
  | f32 | f32_2 | f32_3 | f32_4 | f32_8 | f32_16 | f64 | f64_2 | f64_3 | f64_4 | f64_8 | f64_16 | u32 | u64 | u32_3 | u64_3 | i64_3 | i64
  deriving DecidableEq

/-- The names in `to_json`, /repo/src/shamrock/src/patch/PatchDataLayerLayout.cpp:117-156: there is none for `i64`. -/
def FTy.tname : FTy → Res String
  | .f32 => .ok "f32" | .f32_2 => .ok "f32_2" | .f32_3 => .ok "f32_3" | .f32_4 => .ok "f32_4" | .f32_8 => .ok "f32_8" | .f32_16 => .ok "f32_16"
  | .f64 => .ok "f64" | .f64_2 => .ok "f64_2" | .f64_3 => .ok "f64_3" | .f64_4 => .ok "f64_4" | .f64_8 => .ok "f64_8" | .f64_16 => .ok "f64_16"
  | .u32 => .ok "u32" | .u64 => .ok "u64" | .u32_3 => .ok "u32_3" | .u64_3 => .ok "u64_3" | .i64_3 => .ok "i64_3" | .i64 => .throws

/-- The names in `add_field_t`, /repo/src/shamrock/include/shamrock/patch/PatchDataLayerLayout.hpp:203-242. -/
def FTy.ofName (s : String) : Res FTy :=
  if s = "f32" then .ok .f32 else if s = "f32_2" then .ok .f32_2 else if s = "f32_3" then .ok .f32_3 else if s = "f32_4" then .ok .f32_4
  else if s = "f32_8" then .ok .f32_8 else if s = "f32_16" then .ok .f32_16 else if s = "f64" then .ok .f64 else if s = "f64_2" then .ok .f64_2
  else if s = "f64_3" then .ok .f64_3 else if s = "f64_4" then .ok .f64_4 else if s = "f64_8" then .ok .f64_8 else if s = "f64_16" then .ok .f64_16
  else if s = "u32" then .ok .u32 else if s = "u64" then .ok .u64 else if s = "u32_3" then .ok .u32_3 else if s = "u64_3" then .ok .u64_3
  else if s = "i64_3" then .ok .i64_3 else .throws

/-- `FieldDescriptor`, PatchDataLayerLayout.hpp:38-64. -/
structure LField where
  name : String
  ty : FTy
  nvar : Nat
  deriving DecidableEq

/-- `to_json` of a layout, PatchDataLayerLayout.cpp:107-167. -/
def layoutToJson : List LField → Res (List JVal)
  | [] => .ok []
  | f :: r => f.ty.tname.bind fun t => (layoutToJson r).bind fun l => .ok (.obj [("type", .str t), ("nvar", jNat f.nvar), ("field_name", .str f.name)] :: l)

/-- `add_field`, PatchDataLayerLayout.hpp:299-316: a name is used once. -/
def addField (lay : List LField) (f : LField) : Res (List LField) := if lay.any (fun g => g.name == f.name) then .throws else .ok (lay ++ [f])

/-- `from_json` of a layout, PatchDataLayerLayout.cpp:169-173. -/
def layoutOfJson : List JVal → List LField → Res (List LField)
  | [], acc => .ok acc
  | j :: js, acc => ((j.at "field_name").bind JVal.getStr).bind fun n => ((j.at "nvar").bind JVal.u32).bind fun v => ((j.at "type").bind JVal.getStr).bind fun t =>
    (FTy.ofName t).bind fun ty => (addField acc ⟨n, ty, v⟩).bind fun acc' => layoutOfJson js acc'

/-- The simulation box, /repo/src/shamrock/include/shamrock/patch/SimBox.hpp: `ty` is the type of the coordinates, `lower` and `upper` the JSON arrays of
the bounds (JSON keeps the values of floating point numbers: part of the trusted JSON library). -/
structure SimBoxM where
  coord : PatchCoord
  ty : FTy
  lower : JVal
  upper : JVal

/-- `coordtype` is one of five names, SimBox.cpp:39-69. -/
def coordName : FTy → Res String
  | .f32_3 => .ok "f32_3" | .f64_3 => .ok "f64_3" | .u32_3 => .ok "u32_3" | .u64_3 => .ok "u64_3" | .i64_3 => .ok "i64_3" | _ => .throws

/-- `SimulationBoxInfo::to_json`, /repo/src/shamrock/src/patch/SimBox.cpp:32-70. -/
def SimBoxM.toJson (b : SimBoxM) : Res JVal := (coordName b.ty).bind fun n =>
  .ok (.obj [("patchcoormin", jV3 b.coord.cmin), ("patchcoormax", jV3 b.coord.cmax), ("coordtype", .str n), ("box_min", b.lower), ("box_max", b.upper)])

/-- `SimulationBoxInfo::from_json`, SimBox.cpp:72-119: the coordinates must have the type of the main field of the layout. -/
def SimBoxM.ofJson (lay : List LField) (j : JVal) : Res SimBoxM :=
  ((j.at "patchcoormin").bind JVal.v3).bind fun a => ((j.at "patchcoormax").bind JVal.v3).bind fun b => match lay with
  | [] => .ub
  | f :: _ => match coordName f.ty with
    | .ok n => ((j.at "coordtype").bind JVal.getStr).bind fun m => if m = n then
        (j.at "box_min").bind fun lo => (j.at "box_max").bind fun up => .ok ⟨⟨a, b⟩, f.ty, lo, up⟩ else .throws
    | _ => .throws

/-- What a dump holds besides the patches: the layout, the simulation box, the criteria and `synchronized_data` (a JSON value of its own). -/
structure DumpMeta where
  layout : List LField
  simBox : SimBoxM
  critSplit : Nat
  critMerge : Nat
  sync : JVal

/-- `PatchScheduler::serialize_patch_metadata`, /repo/src/shamrock/src/scheduler/PatchScheduler.cpp:1018-1031. -/
def metaToJson {α : Type} (o : TreeOrd) (m : DumpMeta) (s : Sched α) : Res JVal :=
  m.simBox.toJson.bind fun sb => (layoutToJson m.layout).bind fun lay =>
  .ok (.obj [("patchtree", s.tree.toJson o), ("patchlist", plistToJson s.nextPid s.global s.fresh), ("patchdata_layout", .arr lay), ("sim_box", sb),
    ("crit_patch_split", jNat m.critSplit), ("crit_patch_merge", jNat m.critMerge), ("synchronized_data", m.sync)])

/-- The loading of the metadata, ShamrockDump.cpp:193-206 (`synchronized_data` is always written). -/
def metaOfJson (j : JVal) : Res (DumpMeta × PTree × Nat × List Patch × Bool) :=
  (((j.at "patchdata_layout").bind JVal.elems).bind fun l => layoutOfJson l []).bind fun lay =>
  ((j.at "crit_patch_split").bind JVal.u64).bind fun cs => ((j.at "crit_patch_merge").bind JVal.u64).bind fun cm =>
  ((j.at "patchlist").bind plistOfJson).bind fun pl => ((j.at "patchtree").bind PTree.ofJson).bind fun t =>
  ((j.at "sim_box").bind (SimBoxM.ofJson lay)).bind fun sb => (j.at "synchronized_data").bind fun sy =>
  .ok (⟨lay, sb, cs, cm, sy⟩, t, pl)

/-- A write of bytes at an offset of the file. -/
abbrev FWrite := Nat × List Byte

/-- The contents of a file; `none` where nothing was written. -/
abbrev FileC := Nat → Option Byte

/-- One write. -/
def FileC.write (f : FileC) (w : FWrite) : FileC := fun x => if w.1 ≤ x ∧ x < w.1 + w.2.length then w.2[x - w.1]? else f x

/-- Writes in sequence. -/
def FileC.writes (f : FileC) (ws : List FWrite) : FileC := ws.foldl FileC.write f

/-- Reading `len` bytes; bytes that were not written are not defined. -/
def FileC.read (f : FileC) (off : Nat) : Nat → Res (List Byte)
  | 0 => .ok []
  | n + 1 => match f off with
    | none => .ub
    | some b => (f.read (off + 1) n).bind fun r => .ok (b :: r)

/-- `max_message`, io.hpp:183 and 225. -/
def maxMsg : Nat := 2 ^ 30

/-- The chunks of `write_at_large` and `read_at_large`: the offsets 0, 2^30, … below `len` and the lengths, io.hpp:185-188 and 227-230. -/
def msgChunks (len : Nat) : List (Nat × Nat) := (List.range ((len + maxMsg - 1) / maxMsg)).map fun k => (k * maxMsg, min maxMsg (len - k * maxMsg))

/-- `write_at_large`, io.hpp:181-190. -/
def writeAtLarge (b : List Byte) (head : Nat) : List FWrite := (msgChunks b.length).map fun c => (head + c.1, (b.drop c.1).take c.2)

/-- `read_at_large`, io.hpp:224-232. -/
def readAtLarge (f : FileC) (len head : Nat) : Res (List Byte) :=
  (msgChunks len).foldr (fun c acc => (f.read (head + c.1) c.2).bind fun x => acc.bind fun r => .ok (x ++ r)) (.ok [])

/-- `write_header` on rank 0, io.hpp:96-106, 137-147 and 262-266; the other ranks only advance. A length of 2^31 or more does not fit the `int` count. -/
def headerWrites (head : Nat) (s : List Byte) : List FWrite := [(head, leBytes 8 s.length), (head + 8, s)]

/-- `read_header`, io.hpp:116-128, 241-252 and 276-281: the string and the new head. -/
def readHeader (f : FileC) (head : Nat) : Res (List Byte × Nat) :=
  (f.read head 8).bind fun b => (f.read (head + 8) (leVal b)).bind fun s => .ok (s, head + 8 + leVal b)

/-- The serialized patches of one rank, ShamrockDump.cpp:38-50. -/
def dumpItems {α : Type} (ser : PLayer α → Res (List Byte)) : RankData α → Res (List (Nat × List Byte))
  | [] => .ok []
  | (pid, l) :: r => (ser l).bind fun b => (dumpItems ser r).bind fun is => .ok ((pid, b) :: is)

/-- The items of the ranks `0 … W-1`. -/
def dumpAll {α : Type} (ser : PLayer α → Res (List Byte)) (data : Nat → RankData α) : Nat → Res (List (List (Nat × List Byte)))
  | 0 => .ok []
  | n + 1 => (dumpAll ser data n).bind fun r => (dumpItems ser (data n)).bind fun is => .ok (r ++ [is])

/-- `std::exclusive_scan(…, u64{0})`, ShamrockDump.cpp:60-62. -/
def exScan64 : Nat → List Nat → List Nat
  | _, [] => []
  | a, x :: r => a :: exScan64 (u64add a x) r

/-- The table, ShamrockDump.cpp:66-69. -/
def tableJson (pids counts offs : List Nat) : JVal := .obj [("pids", jNats pids), ("bytecounts", jNats counts), ("offsets", jNats offs)]

/-- `map[all_pids[i]] = i`, ShamrockDump.cpp:127-130: the last index; `map[pid]` gives 0 for an unknown id. -/
def lastIdx (pids : List Nat) (pid : Nat) : Nat := pids.zipIdx.foldl (fun i p => if p.1 = pid then p.2 else i) 0

/-- The writes of the patches of one rank, ShamrockDump.cpp:132-143. -/
def itemWrites (head : Nat) (pids offs : List Nat) : List (Nat × List Byte) → Res (List FWrite)
  | [] => .ok []
  | (pid, b) :: r => match offs[lastIdx pids pid]? with
    | none => .ub
    | some o => (itemWrites head pids offs r).bind fun ws => .ok (writeAtLarge b (head + o) ++ ws)

/-- All the ranks. -/
def allItemWrites (head : Nat) (pids offs : List Nat) : List (List (Nat × List Byte)) → Res (List (List FWrite))
  | [] => .ok []
  | is :: r => (itemWrites head pids offs is).bind fun w => (allItemWrites head pids offs r).bind fun ws => .ok (w :: ws)

/-- `write_shamrock_dump` on all ranks, ShamrockDump.cpp:25-161: the writes of each rank. `user r` is the string given by rank `r`, `js` the text of a JSON
value. The headers are written by rank 0 only; their sizes must agree on all ranks (lines 100-119; the two other headers are made from data that all ranks
share). Line 152 indexes the table with `size - 1`. -/
def writeDump {α : Type} (ser : PLayer α → Res (List Byte)) (js : JVal → List Byte) (W : Nat) (user : Nat → List Byte) (o : TreeOrd) (m : DumpMeta) (s : Sched α) :
    Res (List (List FWrite)) :=
  (metaToJson o m s).bind fun mj =>
  (dumpAll ser s.data W).bind fun items =>
  (vectorAllgatherv 0 (items.map fun is => is.map (·.1)) []).bind fun gp =>
  (vectorAllgatherv 0 (items.map fun is => is.map (·.2.length)) []).bind fun gc =>
  let offs := exScan64 0 gc.1
  let mt := js mj
  let tt := js (tableJson gp.1 gc.1 offs)
  if 2 ^ 31 ≤ (user 0).length ∨ 2 ^ 31 ≤ mt.length ∨ 2 ^ 31 ≤ tt.length then .ub else
  if (List.range W).any (fun r => decide (((List.range W).map fun q => (user q).length).sum % 2 ^ 64 ≠ (user r).length * W)) then .throws else
  let h1 := 8 + (user 0).length
  let h2 := h1 + (8 + mt.length)
  let h3 := h2 + (8 + tt.length)
  (allItemWrites h3 gp.1 offs items).bind fun ws =>
  if offs = [] then .ub else
  match ws with
  | [] => .ub
  | w0 :: r => .ok ((headerWrites 0 (user 0) ++ headerWrites h1 mt ++ headerWrites h2 tt ++ w0) :: r)

/-- The file after the writes of all ranks, in any order (the order of one rank is kept or not: the result does not depend on it). -/
def DumpFile (ws : List (List FWrite)) (f : FileC) : Prop := ∃ order : List FWrite, order.Perm ws.flatten ∧ f = FileC.writes (fun _ => none) order

/-- What `load_shamrock_dump` restores. -/
structure Loaded (α : Type) where
  user : List Byte
  dmeta : DumpMeta
  sched : Sched α

/-- `off_table[pid]`, ShamrockDump.cpp:232-240: the last entry, (0, 0) if there is none. -/
def offTable (pids offs counts : List Nat) (pid : Nat) : Nat × Nat :=
  if pid ∈ pids then (offs[lastIdx pids pid]?.getD 0, counts[lastIdx pids pid]?.getD 0) else (0, 0)

/-- The loading of the patches of one rank, ShamrockDump.cpp:238-256. -/
def loadItems {α : Type} (des : List Byte → Res (PLayer α)) (f : FileC) (head : Nat) (tab : Nat → Nat × Nat) : List Patch → RankData α → Res (RankData α)
  | [], d => .ok d
  | p :: r, d => (readAtLarge f (tab p.idPatch).2 (head + (tab p.idPatch).1)).bind fun b => (des b).bind fun l =>
    (addAll [(p.idPatch, l)] d).bind fun d' => loadItems des f head tab r d'

/-- `load_shamrock_dump` on `W` ranks, ShamrockDump.cpp:163-272. `parse` reads a JSON text, `des` deserializes with a layout. The three vectors of the table
are indexed together (lines 234-236). `owned_patch_id` is not set (line 216 discards the result). -/
def loadDump {α : Type} (des : List LField → List Byte → Res (PLayer α)) (parse : List Byte → Option JVal) (W : Nat) (f : FileC) : Res (Loaded α) :=
  (readHeader f 0).bind fun h1 => (readHeader f h1.2).bind fun h2 => (readHeader f h2.2).bind fun h3 =>
  match parse h2.1, parse h3.1 with
  | some jm, some jt =>
    (metaOfJson jm).bind fun m =>
    let global := m.2.2.2.1.map fun p => { p with nodeOwnerId := p.nodeOwnerId % W }
    ((jt.at "bytecounts").bind JVal.u64s).bind fun counts => ((jt.at "offsets").bind JVal.u64s).bind fun offs => ((jt.at "pids").bind JVal.u64s).bind fun pids =>
    if pids.length < counts.length ∨ offs.length < counts.length then .ub else
    (allRanks (fun r d => loadItems (des m.1.layout) f h3.2 (offTable (pids.take counts.length) offs counts) (buildLocal global r) d) W (fun _ => [])).bind fun data =>
    if offs = [] then .ub else
    .ok ⟨h1.1, m.1, ⟨m.2.1, global, m.2.2.1, m.2.2.2.2, fun r => buildLocal global r, fun _ => [], data⟩⟩
  | _, _ => .throws

/-- The serialization of a patch for the dump, ShamrockDump.cpp:39-44: large buffers are allowed. -/
def dumpSer (env : SerEnv) (tys : List STy) (l : PLayer (List Byte)) : Res (List Byte) :=
  (PLayer.byteSize tys l ⟨0, 0⟩).bind fun sz =>
  (SerH.allocate sz true env.junk).bind fun h =>
  (PLayer.serializeBuf env.wr 0 tys l h).bind fun h => h.finalize env.fin

/-- And back, ShamrockDump.cpp:250-253. -/
def dumpDes (env : SerEnv) (junk : Nat → List Byte) (tys : List STy) (lay : List Nat) (b : List Byte) : Res (PLayer (List Byte)) :=
  (SerH.ofBuffer b true env.ext).bind fun h => PLayer.deserializeBuf junk env.ld 0 tys lay h

end Shamrock
