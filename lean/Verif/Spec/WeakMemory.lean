import Verif.Spec.Interleave

/-!
# Threads that see each other's stores late, in any order, or before they are made

In `Spec/Interleave.lean` all threads see one memory, and a store is seen by all of them at once.
Compilers and machines promise less. Here every thread has a view of the memory of its own. It sees
its own stores at once. They reach another thread at any time: late, never, more than once, and in any
order, also when they are to the same place. A store may even reach other threads before the thread
makes it, if the thread is going to make it when it is left to itself. So stores may pass each other
(as on machines with store buffers), loads may be made early or late (a load made early is a load of
an old value), and stores may be made before loads that precede them in the program.
-/

namespace Householder.Spec

variable {ι α : Type}

/-- A store by a thread. -/
structure Store (ι α : Type) where
  maker : ι
  place : Loc
  value : α

/-- All threads at some moment. -/
structure Weak (ι α : Type) where
  /-- the memory as each thread sees it -/
  view : ι → Mem α
  task : ι → Task α
  /-- the stores that may reach other threads -/
  stores : List (Store ι α)
  /-- the accesses to memory made so far: by which thread, whether it was a store, and where -/
  past : List (ι × Bool × Loc)

/-- What can happen. -/
inductive Happening (ι : Type) where
  /-- the thread makes one move -/
  | move (k : ι)
  /-- one of the stores reaches the thread -/
  | arrive (k : ι) (i : Nat)
  /-- the stores that the thread makes in its next moves, if nothing reaches it until then, may reach
  the others from now on -/
  | early (k : ι) (moves : Nat)

namespace Weak

/-- Before any thread has moved. -/
def start (P : Crew ι α) (mem : Mem α) : Weak ι α :=
  ⟨fun _ => mem, fun k => ⟨[], P.mats k, none⟩, [], []⟩

/-- Two threads have accessed the same place, and one of the accesses was a store. The threads do
nothing to order their accesses, so this is a data race in the sense of the language. -/
def Race (w : Weak ι α) : Prop :=
  ∃ k l b b' p, k ≠ l ∧ (k, b, p) ∈ w.past ∧ (l, b', p) ∈ w.past ∧ (b = true ∨ b' = true)

variable [DecidableEq ι]

/-- The thread goes on. -/
def put (w : Weak ι α) (k : ι) (t : Task α) : Weak ι α :=
  { w with task := fun l => if l = k then t else w.task l }

/-- The thread sees a value at a place. -/
def see (w : Weak ι α) (k : ι) (p : Loc) (v : α) : Weak ι α :=
  { w with view := fun l => if l = k then ⟨(w.view l).bufs.modify p.buf (·.set p.idx v)⟩ else w.view l }

variable [Zero α] [One α] [Add α] [Mul α]

/-- Thread `k` makes one move, as in `Scene.move`, in its view. A new allocation is new to all. -/
def move [Target] (cfg : Cfg) (K : GemmArgs α → Steps α Unit) (P : Crew ι α) (w : Weak ι α) (k : ι) :
    Option (Weak ι α) :=
  let t := w.task k
  match t.cur with
  | none => match P.prog k t.seen with
    | none => some w
    | some op => some (w.put k ⟨t.seen, t.mats, some (op.steps cfg K t.mats)⟩)
  | some (.done (.ok r)) => some (w.put k ⟨t.seen ++ [r.1], t.mats ++ r.2, none⟩)
  | some (.done .panic) => some (w.put k ⟨t.seen ++ [.panicked], t.mats, none⟩)
  | some (.done .ub) => none
  | some (.read p f) => ((w.view k).get? p).bind fun v =>
      some { w.put k ⟨t.seen, t.mats, some (f v)⟩ with past := w.past ++ [(k, false, p)] }
  | some (.write p v f) => ((w.view k).get? p).bind fun _ =>
      some { (w.see k p v).put k ⟨t.seen, t.mats, some f⟩ with
        stores := w.stores ++ [⟨k, p, v⟩]
        past := w.past ++ [(k, true, p)] }
  | some (.alloc xs f) =>
      some { w.put k ⟨t.seen, t.mats, some (f (w.view k).bufs.length)⟩ with
        view := fun l => ⟨(w.view l).bufs ++ [xs]⟩ }

/-- Thread `k` makes `n` moves while nothing reaches it. -/
def ahead [Target] (cfg : Cfg) (K : GemmArgs α → Steps α Unit) (P : Crew ι α) (k : ι) :
    Nat → Weak ι α → Option (Weak ι α)
  | 0, w => some w
  | n + 1, w => (w.move cfg K P k).bind (ahead cfg K P k n)

/-- One thing happens. Undefined behaviour has no continuation. A thread's own stores do not come back
to it. Stores are made early only to places that exist. -/
def happen [Target] (cfg : Cfg) (K : GemmArgs α → Steps α Unit) (P : Crew ι α) (w : Weak ι α) :
    Happening ι → Option (Weak ι α)
  | .move k => w.move cfg K P k
  | .arrive k i => match w.stores[i]? with
    | some s => some (if s.maker = k then w else w.see k s.place s.value)
    | none => some w
  | .early k n => match ahead cfg K P k n w with
    | some w' => some { w with
        stores := w.stores ++ (w'.stores.drop w.stores.length).filter
          (fun s => s.place.buf < (w.view k).bufs.length) }
    | none => some w

/-- Things happen one after the other. -/
def run [Target] (cfg : Cfg) (K : GemmArgs α → Steps α Unit) (P : Crew ι α) :
    Weak ι α → List (Happening ι) → Option (Weak ι α)
  | w, [] => some w
  | w, h :: hs => (w.happen cfg K P h).bind fun w' => run cfg K P w' hs

end Weak

/-- As `RunsAsAlone`, whatever happens: the threads have defined behaviour, there has been no race,
each has observed what it observes alone, and what its values show to it between its operations is
what they show alone. -/
def WeaklyAsAlone [DecidableEq ι] [Target] [Zero α] [One α] [Add α] [Mul α] (cfg : Cfg)
    (K : GemmArgs α → Steps α Unit) (P : Crew ι α) (mem : Mem α) (hs : List (Happening ι)) : Prop :=
  ∃ w, (Weak.start P mem).run cfg K P hs = some w ∧ ¬ w.Race ∧
    ∀ k, ∃ n x, alone cfg K (P.prog k) ⟨mem, P.mats k⟩ n = some x ∧ (w.task k).seen = x.1 ∧
      ((w.task k).cur = none → SameElements cfg (w.task k).mats (w.view k) x.2.mats x.2.mem)

end Householder.Spec
