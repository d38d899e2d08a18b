import Verif.Model.Base

/-!
# Memory and data containers (src/data_container.rs)

Memory is a list of allocations. A data container is a window of one allocation.
-/

namespace Householder

/-- All memory of a program: the allocations made so far, in order. Allocation `b`
is `bufs[b]`. Nothing is freed (simplification; programs that drop values are in
`Spec/Lifetimes.lean`, and C76 shows that drops change nothing else). -/
structure Mem (α : Type) where
  bufs : List (List α)
  deriving DecidableEq, Repr

/-- A place in memory: what a `&mut Item` denotes. -/
structure Loc where
  buf : Nat
  idx : Nat
  deriving DecidableEq, Repr

namespace Mem

variable {α : Type}

/-- The content of a place, if it exists. -/
def get? (mem : Mem α) (p : Loc) : Option α := (mem.bufs[p.buf]?).bind (·[p.idx]?)

/-- Number of cells of allocation `b` (0 if there is no such allocation). -/
def size (mem : Mem α) (b : Nat) : Nat := ((mem.bufs[b]?).getD []).length

/-- Reading `*p`. -/
def read (mem : Mem α) (p : Loc) : Out α :=
  match mem.get? p with
  | some v => .ok v
  | none => .ub

/-- Assigning `*p = v`. -/
def write (mem : Mem α) (p : Loc) (v : α) : Out (Mem α) :=
  match mem.get? p with
  | some _ => .ok ⟨mem.bufs.modify p.buf (·.set p.idx v)⟩
  | none => .ub

/-- A new allocation holding `xs`; returns its identifier. -/
def alloc (mem : Mem α) (xs : List α) : Nat × Mem α := (mem.bufs.length, ⟨mem.bufs ++ [xs]⟩)

end Mem

/-- The data of a `VectorContainer`, `ArrayContainer`, `SliceContainer` or
`SliceContainerMut` (src/data_container.rs:80-96): `len` cells of allocation `buf`,
from offset `off`. For the two owning containers `off = 0` and `len` is the size of
the allocation. (Simplification: one type for the four; which of them are mutable or
owning is a typing matter.) -/
structure Container where
  buf : Nat
  off : Nat
  len : Nat
  deriving DecidableEq, Repr

/-- A raw pointer `*const Item` / `*mut Item`: an offset relative to the start of the
container it was derived from (its provenance). -/
structure Ptr where
  prov : Container
  off : Nat
  deriving DecidableEq, Repr

namespace Container

variable {α : Type}

/-- `VectorContainer::new` (src/data_container.rs:98-107): `vec![0; nelems]`.
Panics with "capacity overflow" beyond `isize::MAX` bytes. (Simplification: memory
exhaustion is not modelled.) -/
def newVector [Target] [Zero α] (cfg : Cfg) (mem : Mem α) (nelems : Nat) : Out (Container × Mem α) :=
  if nelems * cfg.item.size ≤ isizeMax then
    let r := mem.alloc (List.replicate nelems 0)
    .ok (⟨r.1, 0, nelems⟩, r.2)
  else .panic

/-- `ArrayContainer::new` (src/data_container.rs:109-115): `[0; N]`. `ArrayContainer::default`
(src/data_container.rs:117-121) is `new`. -/
def newArray [Zero α] (mem : Mem α) (n : Nat) : Container × Mem α :=
  let r := mem.alloc (List.replicate n 0)
  (⟨r.1, 0, n⟩, r.2)

/-- A `Vec<Item>`/array/slice the user brings along, holding `xs`, wrapped by
`SliceContainer::new` / `SliceContainerMut::new` (src/data_container.rs:123-135).
Like every Rust allocation it has at most `isize::MAX` bytes; the model panics
otherwise (such a slice cannot exist). -/
def newSlice [Target] (cfg : Cfg) (mem : Mem α) (xs : List α) : Out (Container × Mem α) :=
  if xs.length * cfg.item.size ≤ isizeMax then
    let r := mem.alloc xs
    .ok (⟨r.1, 0, xs.length⟩, r.2)
  else .panic

/-- `DataContainer::number_of_elements` (src/data_container.rs:148-150, 174-176,
200-202, 216-218). -/
def number_of_elements (d : Container) : Nat := d.len

/-- `DataContainer::get_unchecked` (src/data_container.rs:140-142, 166-168, 192-194,
208-210): `*self.data.get_unchecked(index)`, UB outside the slice. -/
def get_unchecked (d : Container) (mem : Mem α) (index : Nat) : Out α :=
  if index < d.len then mem.read ⟨d.buf, d.off + index⟩ else .ub

/-- `DataContainerMut::get_unchecked_mut` (src/data_container.rs:154-156, 180-182,
222-224): the place of the element, UB outside the slice. -/
def get_unchecked_mut (d : Container) (index : Nat) : Out Loc :=
  if index < d.len then .ok ⟨d.buf, d.off + index⟩ else .ub

/-- `get_pointer` / `get_pointer_mut` (src/data_container.rs:144-146, 158-160, ...):
`self.data.as_ptr()`. -/
def get_pointer (d : Container) : Ptr := ⟨d, 0⟩

end Container

namespace Ptr

/-- `ptr.add(k)`: UB when the result leaves the provenance (one past the end is
allowed). -/
def add (p : Ptr) (k : Nat) : Out Ptr :=
  if p.off + k ≤ p.prov.len then .ok ⟨p.prov, p.off + k⟩ else .ub

/-- `ptr.offset(k)`: UB when the result leaves the provenance. -/
def offset (p : Ptr) (k : Int) : Out Ptr :=
  if 0 ≤ (p.off : Int) + k ∧ (p.off : Int) + k ≤ p.prov.len then
    .ok ⟨p.prov, ((p.off : Int) + k).toNat⟩
  else .ub

/-- `std::slice::from_raw_parts(ptr, n)` / `from_raw_parts_mut`: UB unless the `n`
cells lie inside the provenance. (Simplification: the exclusiveness that a `&mut`
slice promises is not tracked; see C33.) -/
def from_raw_parts (p : Ptr) (n : Nat) : Out Container :=
  if p.off + n ≤ p.prov.len then .ok ⟨p.prov.buf, p.prov.off + p.off, n⟩ else .ub

end Ptr

namespace Container

variable {α : Type}

/-- Reading the elements of a slice in order (`&[Item]` as a list). -/
def toList (d : Container) (mem : Mem α) : Out (List α) :=
  (List.range d.len).mapM (fun i => d.get_unchecked mem i)

/-- `DataContainer::get_slice` (src/data_container.rs:23-39). -/
def get_slice (d : Container) (first last : Nat) : Out Container := do
  Out.assert (first < last)
  Out.assert (last ≤ d.number_of_elements)
  let p ← d.get_pointer.add first
  p.from_raw_parts (last - first)

/-- `DataContainerMut::get_slice_mut` (src/data_container.rs:53-76). -/
def get_slice_mut (d : Container) (first last : Nat) : Out Container := do
  Out.assert (first < last)
  Out.assert (first < d.number_of_elements)
  Out.assert (last ≤ d.number_of_elements)
  let p ← d.get_pointer.add first
  p.from_raw_parts (last - first)

/-- Storing through a slice element by element: what a caller of `get_slice_mut` does
with `slice[i] = xs[i]` (std's bounds check panics past the end). -/
def writeList (d : Container) (mem : Mem α) (xs : List α) : Out (Mem α) :=
  if xs.length ≤ d.len then
    forRange xs.length (fun i mem =>
      match xs[i]? with
      | some v => do
          let p ← d.get_unchecked_mut i
          mem.write p v
      | none => .panic) mem
  else .panic

end Container

end Householder
