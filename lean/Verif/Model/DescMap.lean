import Verif.Model.Brief

/-!
# Model of the map of descriptors: `src/vg_descriptor_map.cc`, `include/virg/nexus/vg_descriptor_map.hpp`

The two vectors are lists. Offsets are products of two `int`, which may overflow. A pointer to a descriptor is its position in the
memory of all descriptors. Memory does not run out, and the number of octets is not negative.
-/

namespace Nx

/-- `class VGDescriptorMap`, `include/virg/nexus/vg_descriptor_map.hpp:37-69`. -/
structure DescMap where
  octets : Nat
  ids : List UInt64
  data : Bytes
deriving DecidableEq, Repr

/-- `static_cast<int>(m_ids.size())`; a size that does not fit is treated as undefined. -/
def dmSize (m : DescMap) : Res Nat := if m.ids.length ≤ 2147483647 then .ok m.ids.length else .ub

/-- `i*m_n_octets`. -/
def dmOffset (m : DescMap) (i : Nat) : Res Nat := if i * m.octets ≤ 2147483647 then .ok (i * m.octets) else .ub

/-- `VGDescriptorMap::clear`, `src/vg_descriptor_map.cc:43-47`. -/
def dmClear (m : DescMap) : DescMap := { m with ids := [], data := [] }

/-- `VGDescriptorMap::set_n_octets`, `include/virg/nexus/vg_descriptor_map.hpp:56`. -/
def dmSetOctets (m : DescMap) (n : Nat) : DescMap := { dmClear m with octets := n }

/-- `memcpy(dest, src, n)` to the position `p`. -/
def copyBytes (mem : Bytes) (p : Nat) (src : Bytes) (n : Nat) : Res Bytes :=
  if p + n ≤ mem.length ∧ n ≤ src.length then .ok (mem.take p ++ src.take n ++ mem.drop (p + n)) else .ub

/-- `VGDescriptorMap::add`, `src/vg_descriptor_map.cc:55-65`: the returned number and the map. -/
def dmAdd (m : DescMap) (id : UInt64) (desc : Bytes) : Res (Nat × DescMap) := do
  let i ← dmSize m
  let m := { m with ids := m.ids ++ [id] }
  let data := m.data ++ List.replicate m.octets 0
  let p ← dmOffset m i
  let data ← copyBytes data p desc m.octets
  let m := { m with data := data }
  let n ← dmSize m
  pure (n, m)

/-- The memory of the descriptor at `p`; reading behind the end is undefined. -/
def dmRead (m : DescMap) (p : Nat) : Res Bytes :=
  if p + m.octets ≤ m.data.length then .ok ((m.data.drop p).take m.octets) else .ub

/-- The loop of `search_nn`, `src/vg_descriptor_map.cc:73-80`. -/
def dmSearchLoop (m : DescMap) (desc : Bytes) (n i idx dist : Nat) : Res (Nat × Nat) :=
  if i < n then do
    let p ← dmOffset m i
    let e ← dmRead m p
    let d ← descriptorDistance m.octets desc e
    if d < dist then dmSearchLoop m desc n (i + 1) i d else dmSearchLoop m desc n (i + 1) idx dist
  else pure (idx, dist)
termination_by n - i

/-- `VGDescriptorMap::search_nn`, `src/vg_descriptor_map.cc:67-84`: the identifier and the cost. `&m_descriptor_data[0]` is undefined
for an empty vector. -/
def dmSearchNN (m : DescMap) (desc : Bytes) : Res (UInt64 × Nat) := do
  let n ← dmSize m
  if m.data = [] then .ub
  else do
    let e ← dmRead m 0
    let d ← descriptorDistance m.octets desc e
    let r ← dmSearchLoop m desc n 1 0 d
    let id ← readAt m.ids r.1
    pure (id, r.2)

/-- The loop of `search_by_id`, `src/vg_descriptor_map.cc:89-92`. -/
def dmIdLoop (m : DescMap) (id : UInt64) (n i : Nat) : Res (Option Nat) :=
  if i < n then do
    let x ← readAt m.ids i
    if id = x then do
      let p ← dmOffset m i
      pure (some p)
    else dmIdLoop m id n (i + 1)
  else pure none
termination_by n - i

/-- `VGDescriptorMap::search_by_id`, `src/vg_descriptor_map.cc:86-95`: a position in the memory of the descriptors, or null. -/
def dmSearchId (m : DescMap) (id : UInt64) : Res (Option Nat) := do
  let n ← dmSize m
  dmIdLoop m id n 0

/-- `get_id`, `include/virg/nexus/vg_descriptor_map.hpp:50`. -/
def dmGetId (m : DescMap) (i : Nat) : Res UInt64 := readAt m.ids i

/-- `get_descriptor`, `include/virg/nexus/vg_descriptor_map.hpp:52-53`. -/
def dmGetDescriptor (m : DescMap) (i : Nat) : Res Nat := dmOffset m i

/-- Operations that change a map. -/
inductive DmOp where
  | clear
  | setOctets (n : Nat)
  | add (id : UInt64) (desc : Bytes)

/-- One operation. -/
def dmStep (m : DescMap) : DmOp → Res DescMap
  | .clear => .ok (dmClear m)
  | .setOctets n => .ok (dmSetOctets m n)
  | .add id desc => do
    let r ← dmAdd m id desc
    pure r.2

/-- Several operations. -/
def dmRun (m : DescMap) : List DmOp → Res DescMap
  | [] => .ok m
  | o :: os => do
    let m ← dmStep m o
    dmRun m os

end Nx
