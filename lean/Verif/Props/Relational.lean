import Verif.Lemmas.Relational
import Verif.Props.Histories
import Mathlib.Data.ZMod.Basic

/-!
# C64: which operations panic, and where, never depends on the scalars
-/

namespace Householder.Props

open Householder.Spec

variable {α β : Type} [Zero α] [One α] [Add α] [Mul α] [Zero β] [One β] [Add β] [Mul β]

/-- The empty start states are related. -/
theorem empty_related (R : α → β → Prop) :
    StRel R (⟨⟨[]⟩, []⟩ : St α) (⟨⟨[]⟩, []⟩ : St β) := ⟨.nil, .nil⟩

/-- **C64** (abstraction theorem) Let `R` be any relation between two scalar types that respects
zero, one, sums, products and the kernels. Programs that differ only in related scalars, started
in related states, both have undefined behaviour or both have none, and then they make related
observations and end in related states: the same matrices, laid out the same way, over memories of
the same shape with related cells. -/
theorem C64_relational [Target] (cfg : Cfg) (R : α → β → Prop) (hR : Respects R) (kern : Kern α)
    (kern' : Kern β) (hk : KernRel R kern kern') (ops : List (Op α)) (ops' : List (Op β))
    (ho : List.Forall₂ (OpRel R) ops ops') (s : St α) (s' : St β) (hs : StRel R s s') :
    (runProgram cfg kern s ops = none ∧ runProgram cfg kern' s' ops' = none) ∨
      ∃ obs obs' t t', runProgram cfg kern s ops = some (obs, t) ∧
        runProgram cfg kern' s' ops' = some (obs', t') ∧ List.Forall₂ (ObsRel R) obs obs' ∧
        StRel R t t' := by
  have h := rel_run cfg hk hR ho hs
  revert h
  generalize runProgram cfg kern s ops = x
  generalize runProgram cfg kern' s' ops' = y
  intro h
  cases h with
  | none => exact .inl ⟨rfl, rfl⟩
  | some h => exact .inr ⟨_, _, _, _, rfl, rfl, h.1, h.2⟩

omit [Zero α] [One α] [Add α] [Mul α] [Zero β] [One β] [Add β] [Mul β] in
theorem form_eq {R : α → β → Prop} {o : Obs α} {o' : Obs β} (h : ObsRel R o o') :
    o.form = o'.form := by
  cases h with
  | value _ => rfl
  | values h => simp [Obs.form, h.length_eq]
  | done => rfl
  | panicked => rfl

/-- **C64** (data independence) Take two programs of the same form over any two scalar types, with
any arithmetic and any kernels, started on the same matrices over memories of the same shape.
Whether an operation has undefined behaviour, which operations panic, how many values each one
shows, the matrices obtained and the sizes of all buffers are the same: no scalar ever decides
where the library goes. -/
theorem C64_data_independence [Target] (cfg : Cfg) (kern : Kern α) (kern' : Kern β) (ops : List (Op α))
    (ops' : List (Op β)) (ho : List.Forall₂ SameForm ops ops') (s : St α) (s' : St β)
    (hs : StRel (fun _ _ => True) s s') :
    (runProgram cfg kern s ops).isSome = (runProgram cfg kern' s' ops').isSome ∧
      ∀ obs obs' t t', runProgram cfg kern s ops = some (obs, t) →
        runProgram cfg kern' s' ops' = some (obs', t') →
        obs.map Obs.form = obs'.map Obs.form ∧
        t.mem.bufs.map List.length = t'.mem.bufs.map List.length ∧
        ∀ h, t.base? h = t'.base? h := by
  rcases C64_relational cfg (fun _ _ => True) ⟨trivial, trivial, fun _ _ _ _ _ _ => trivial,
    fun _ _ _ _ _ _ => trivial⟩ kern kern' (fun _ _ _ _ _ _ _ _ _ _ _ _ _ => trivial) ops ops' ho s s'
    hs with ⟨h, h'⟩ | ⟨obs, obs', t, t', h, h', h1, h2⟩
  · exact ⟨by rw [h, h']; rfl, fun _ _ _ _ e => by simp [h] at e⟩
  · refine ⟨by rw [h, h']; rfl, fun o o' u u' e e' => ?_⟩
    obtain ⟨rfl, rfl⟩ : obs = o ∧ t = u := by simpa [h] using e
    obtain ⟨rfl, rfl⟩ : obs' = o' ∧ t' = u' := by simpa [h'] using e'
    refine ⟨?_, ?_, fun i => h2.base? i⟩
    · rw [← List.forall₂_eq_eq_eq, List.forall₂_map_left_iff, List.forall₂_map_right_iff]
      exact h1.imp fun _ _ h => form_eq h
    · rw [← List.forall₂_eq_eq_eq, List.forall₂_map_left_iff, List.forall₂_map_right_iff]
      exact h2.mem.imp fun _ _ h => h.length_eq

omit [Zero α] [One α] [Add α] [Mul α] [Zero β] [One β] [Add β] [Mul β] in
theorem forall₂_image {A B : Type} {f : A → B} {xs : List A} {ys : List B} :
    List.Forall₂ (fun a b => f a = b) xs ys ↔ xs.map f = ys := by
  rw [← List.forall₂_map_left_iff, List.forall₂_eq_eq_eq]

omit [Zero α] [One α] [Add α] [Mul α] [Zero β] [One β] [Add β] [Mul β] in
theorem memRel_image {f : α → β} {mem : Mem α} {mem' : Mem β}
    (h : MemRel (fun a b => f a = b) mem mem') : Mem.mapCells f mem = mem' := by
  unfold Mem.mapCells
  obtain ⟨bufs'⟩ := mem'
  congr 1
  rw [← forall₂_image]
  exact List.Forall₂.imp (fun _ _ h => forall₂_image.1 h) h

/-- **C64** (homomorphisms) If `f` preserves zero, one, sums, products and the kernels, then
replacing every scalar of a program by its image replaces every observed scalar and every cell of
memory by its image and changes nothing else. -/
theorem C64_homomorphism [Target] (cfg : Cfg) (f : α → β) (h0 : f 0 = 0) (h1 : f 1 = 1)
    (ha : ∀ a b, f (a + b) = f a + f b) (hm : ∀ a b, f (a * b) = f a * f b) (kern : Kern α)
    (kern' : Kern β)
    (hk : ∀ x a ps b c, f (kern x a ps b c) = kern' x (f a) (ps.map fun p => (f p.1, f p.2)) (f b) (f c))
    (ops : List (Op α)) (ops' : List (Op β)) (ho : List.Forall₂ (Image f) ops ops') :
    (runProgram cfg kern' ⟨⟨[]⟩, []⟩ ops').map (fun x => (x.1, x.2.mem)) =
      (runProgram cfg kern ⟨⟨[]⟩, []⟩ ops).map
        (fun x => (x.1.map (Obs.map f), Mem.mapCells f x.2.mem)) := by
  have hR : Respects (fun a b => f a = b) := by
    refine ⟨h0, h1, ?_, ?_⟩
    · rintro a _ b _ rfl rfl; exact ha a b
    · rintro a _ b _ rfl rfl; exact hm a b
  have hK : KernRel (fun a b => f a = b) kern kern' := by
    rintro x a _ ps ps' b _ c _ rfl hps rfl rfl
    rw [hk]
    congr 1
    rw [← forall₂_image]
    exact hps.imp fun p p' h => Prod.ext h.1 h.2
  rcases C64_relational cfg _ hR kern kern' hK ops ops' ho _ _ (empty_related _) with
    ⟨h, h'⟩ | ⟨obs, obs', t, t', h, h', h1, h2⟩
  · rw [h, h']; rfl
  · rw [h, h']
    have e : obs.map (Obs.map f) = obs' := by
      rw [← forall₂_image]
      refine h1.imp fun o o' h => ?_
      cases h with
      | value h => rw [← h]; rfl
      | values h => rw [← forall₂_image.1 h]; rfl
      | done => rfl
      | panicked => rfl
    rw [Option.map_some, Option.map_some, e, memRel_image h2.mem]

/-- **C64** for exact products: a homomorphism of semirings preserves the documented kernel. -/
theorem C64_exact_kernel {A B : Type} [Semiring A] [Semiring B] (f : A →+* B) (x : Site) (a : A)
    (ps : List (A × A)) (b c : A) :
    f (exactKern x a ps b c) = exactKern x (f a) (ps.map fun p => (f p.1, f p.2)) (f b) (f c) := by
  simp [exactKern, map_list_sum, List.map_map, Function.comp_def]

/-! ## Non-trivial cases -/

/-- A program with a product, a sum, a panic and reads. -/
def someProgram (x : α) : List (Op α) :=
  [.zeros .rowMajor 2 3, .zeros .rowMajor 3 2, .element 0 (.set 1 2 x), .element 1 (.set 2 0 x),
    .dot 0 1, .add true true 2 2, .scale true false x 3, .eval 4, .get 5 1 0, .get 5 2 0,
    .readSlice 5 0 4]

omit [Zero α] [One α] [Add α] [Mul α] [Zero β] [One β] [Add β] [Mul β] in
theorem someProgram_rel (R : α → β → Prop) {x : α} {y : β} (h : R x y) :
    List.Forall₂ (OpRel R) (someProgram x) (someProgram y) :=
  .cons (.zeros ..) <| .cons (.zeros ..) <| .cons (.element 0 (.set 1 2 h)) <|
    .cons (.element 1 (.set 2 0 h)) <| .cons (.dot ..) <| .cons (.add ..) <|
    .cons (.scale _ _ _ h) <| .cons (.eval _) <| .cons (.get ..) <| .cons (.get ..) <|
    .cons (.readSlice ..) .nil

/-- Over the integers with `x = 3`: the product is 9, the sum 18, the multiple 54. -/
theorem someProgram_int [Target] : (runProgram (α := Int) dbg exactKern ⟨⟨[]⟩, []⟩ (someProgram 3)).map Prod.fst =
    some [.done, .done, .done, .done, .done, .done, .done, .done, .value 54, .panicked,
      .values [0, 0, 54, 0]] := by
  decide_width

/-- Data independence: the same program over any scalars and with any kernel panics in the
same place. -/
example (kern : Kern α) (x : α) (obs : List (Obs α)) (t : St α)
    (h : runProgram dbg kern ⟨⟨[]⟩, []⟩ (someProgram x) = some (obs, t)) :
    obs.map Obs.form = [.done, .done, .done, .done, .done, .done, .done, .done, .value, .panicked,
      .values 4] := by
  have hi := someProgram_int
  rw [Option.map_eq_some_iff] at hi
  obtain ⟨⟨o, u⟩, h1, h2⟩ := hi
  have := ((C64_data_independence dbg (exactKern (α := Int)) kern _ _
    (someProgram_rel _ (x := (3 : Int)) (y := x) trivial) _ _ (empty_related _)).2 _ _ _ _ h1 h).1
  rw [← this, show o = _ from h2]
  rfl

/-- Homomorphism: the remainders modulo 5 of the integer results are the results modulo 5. -/
example : (runProgram (α := ZMod 5) dbg exactKern ⟨⟨[]⟩, []⟩ (someProgram 3)).map Prod.fst =
    some [.done, .done, .done, .done, .done, .done, .done, .done, .value (54 : Int), .panicked,
      .values [((0 : Int) : ZMod 5), (0 : Int), (54 : Int), (0 : Int)]] := by
  have h := C64_homomorphism dbg (Int.castRingHom (ZMod 5)) (map_zero _) (map_one _) (map_add _)
    (map_mul _) exactKern exactKern (C64_exact_kernel _) (someProgram 3) (someProgram 3)
    (someProgram_rel _ (by decide))
  have hi := someProgram_int
  rw [Option.map_eq_some_iff] at hi
  obtain ⟨⟨o, u⟩, h1, h2⟩ := hi
  rw [h1] at h
  have := congrArg (Option.map Prod.fst) h
  rw [Option.map_map] at this
  rw [show (Prod.fst ∘ fun x : List (Obs (ZMod 5)) × St (ZMod 5) => (x.1, x.2.mem)) = Prod.fst from rfl]
    at this
  rw [this, show o = _ from h2]
  rfl

end Householder.Props
