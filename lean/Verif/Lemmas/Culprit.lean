import Verif.Spec.Culprit
import Verif.Lemmas.Memory
import Verif.Lemmas.Construct
import Verif.Lemmas.MatMul
import Verif.Props.Traits
import Verif.Props.Alloc

/-!
# Lemmas on accesses: a computation and the list of what it reaches for
-/

namespace Householder.Spec

open Props

variable {α : Type}

theorem Access.inside.not_beyond {x : Access} (h : x.inside) : ¬ x.beyond := by
  rintro ⟨i', h1, h2⟩
  obtain ⟨i, n, h3, h4, h5, h6, -⟩ := h
  obtain rfl : i = i' := by simpa [h3] using h1
  rcases h2 with h2 | ⟨n', h2, h7⟩
  · omega
  · obtain rfl : n = n' := by simpa [h4] using h2
    omega

theorem leaves_nil : ¬ LeavesContainer [] := by
  rintro ⟨pre, x, post, h, -⟩
  simp at h

theorem leaves_cons {x : Access} {xs : List Access} :
    LeavesContainer (x :: xs) ↔ x.beyond ∨ x.inside ∧ LeavesContainer xs := by
  constructor
  · rintro ⟨pre, y, post, h, h1, h2⟩
    cases pre with
    | nil =>
      obtain ⟨rfl, -⟩ := List.cons.inj h
      exact .inl h2
    | cons z pre =>
      obtain ⟨rfl, h'⟩ := List.cons.inj h
      exact .inr ⟨h1 _ (by simp), pre, y, post, h', fun w hw => h1 w (by simp [hw]), h2⟩
  · rintro (h | ⟨h, pre, y, post, rfl, h1, h2⟩)
    · exact ⟨[], x, xs, rfl, by simp, h⟩
    · exact ⟨x :: pre, y, post, rfl, by simpa using ⟨h, h1⟩, h2⟩

theorem leaves_append {xs ys : List Access} :
    LeavesContainer (xs ++ ys) ↔
      LeavesContainer xs ∨ (∀ x ∈ xs, x.inside) ∧ LeavesContainer ys := by
  induction xs with
  | nil => simp [leaves_nil]
  | cons x xs ih =>
    rw [List.cons_append, leaves_cons, ih, leaves_cons]
    simp only [List.mem_cons, forall_eq_or_imp]
    tauto

/-- A computation that does exactly these accesses: it is undefined if one of them leaves its
container, and finishes if all succeed. -/
structure Tracks {β : Type} (o : Out β) (xs : List Access) : Prop where
  ub : o = .ub ↔ LeavesContainer xs
  ok : (∃ v, o = .ok v) ↔ ∀ x ∈ xs, x.inside

theorem Tracks.pure {β : Type} (v : β) : Tracks (Out.ok v) [] :=
  ⟨by simp [leaves_nil], by simp⟩

theorem Tracks.bind {β γ : Type} {o : Out β} {f : β → Out γ} {xs ys : List Access}
    (h : Tracks o xs) (hf : ∀ v, o = .ok v → Tracks (f v) ys) : Tracks (o >>= f) (xs ++ ys) := by
  constructor
  · rw [Out.bind_eq_ub, leaves_append, h.ub, ← h.ok]
    refine or_congr_right ⟨?_, ?_⟩
    · rintro ⟨v, h1, h2⟩
      exact ⟨⟨v, h1⟩, (hf v h1).ub.1 h2⟩
    · rintro ⟨⟨v, h1⟩, h2⟩
      exact ⟨v, h1, (hf v h1).ub.2 h2⟩
  · simp only [Out.bind_eq_ok, List.mem_append]
    constructor
    · rintro ⟨w, v, h1, h2⟩ x (hx | hx)
      · exact h.ok.1 ⟨v, h1⟩ x hx
      · exact (hf v h1).ok.1 ⟨w, h2⟩ x hx
    · intro hx
      obtain ⟨v, hv⟩ := h.ok.2 fun x h => hx x (.inl h)
      obtain ⟨w, hw⟩ := (hf v hv).ok.2 fun x h => hx x (.inr h)
      exact ⟨w, v, hv, hw⟩

/-- Followed by something that always finishes. -/
theorem Tracks.then_ok {β γ : Type} {o : Out β} {f : β → Out γ} {xs : List Access}
    (h : Tracks o xs) (hf : ∀ v, o = .ok v → ∃ w, f v = .ok w) : Tracks (o >>= f) xs := by
  have := h.bind (f := f) (ys := []) fun v hv => by
    obtain ⟨w, hw⟩ := hf v hv
    rw [hw]; exact .pure w
  simpa using this

theorem Tracks.after_ok {β γ : Type} {o : Out β} {f : β → Out γ} {xs : List Access} {v : β}
    (ho : o = .ok v) (h : Tracks (f v) xs) : Tracks (o >>= f) xs := by
  rw [ho]; exact h

theorem Tracks.forRange {σ : Type} {body : Nat → σ → Out σ} {f : Nat → List Access} (P : σ → Prop)
    (hb : ∀ i s, P s → Tracks (body i s) (f i))
    (hp : ∀ i s s', P s → body i s = .ok s' → P s') {s : σ} (hs : P s) (n : Nat) :
    Tracks (forRange n body s) ((List.range n).flatMap f) ∧
      ∀ s', Householder.forRange n body s = .ok s' → P s' := by
  induction n with
  | zero =>
    refine ⟨.pure s, fun s' h => ?_⟩
    obtain rfl : s = s' := by simpa [Householder.forRange] using h
    exact hs
  | succ n ih =>
    obtain ⟨ih1, ih2⟩ := ih
    rw [forRange_succ, List.range_succ, List.flatMap_append, List.flatMap_singleton]
    refine ⟨ih1.bind fun v hv => hb n v (ih2 v hv), fun s' h => ?_⟩
    obtain ⟨v, h1, h2⟩ := Out.bind_eq_ok.1 h
    exact hp n v s' (ih2 v h1) h2

/-- The container is in memory. -/
def InMem (b : BaseMatrix) (mem : Mem α) : Prop := b.data.off + b.data.len ≤ mem.size b.data.buf

theorem tracks_element {β : Type} {b : BaseMatrix} {place : Out Nat} {g : Nat → Out β}
    (hp : place ≠ .ub) (h1 : ∀ k, k < b.data.len → ∃ v, g k = .ok v)
    (h2 : ∀ k, ¬ k < b.data.len → g k = .ub) : Tracks (place >>= g) [element b place] := by
  cases place with
  | ub => exact absurd rfl hp
  | panic =>
    constructor
    · simp [leaves_cons, leaves_nil, Access.beyond, element, Out.toInt]
    · simp [Access.inside, element, Out.toInt]
  | ok k =>
    rw [Out.bind_ok]
    by_cases hk : k < b.data.len
    · obtain ⟨v, hv⟩ := h1 k hk
      constructor
      · simp [hv, leaves_cons, leaves_nil, Access.beyond, element, Out.toInt]
        omega
      · simp [hv, Access.inside, element, Out.toInt]
        omega
    · constructor
      · simp [h2 k hk, leaves_cons, leaves_nil, Access.beyond, element, Out.toInt]
        omega
      · simp [h2 k hk, Access.inside, element, Out.toInt]
        omega

theorem read_in {mem : Mem α} {p : Loc} (h : p.idx < mem.size p.buf) : ∃ v, mem.read p = .ok v := by
  obtain ⟨v, hv⟩ := Mem.get?_isSome_iff.2 h
  exact ⟨v, Mem.read_ok_iff.2 hv⟩

theorem write_in {mem : Mem α} {p : Loc} (v : α) (h : p.idx < mem.size p.buf) :
    ∃ mem', mem.write p v = .ok mem' := by
  obtain ⟨w, hw⟩ := Mem.get?_isSome_iff.2 h
  exact ⟨_, by simp only [Mem.write, hw]; rfl⟩

theorem get_unchecked_in {b : BaseMatrix} {mem : Mem α} (h : InMem b mem) {k : Nat}
    (hk : k < b.data.len) : ∃ v, b.data.get_unchecked mem k = .ok v := by
  unfold Container.get_unchecked
  rw [if_pos hk]
  exact read_in (by unfold InMem at h; simp only; omega)

variable [Target] {cfg : Cfg}

theorem tracks_at2d [Add α] [Mul α] {mem : Mem α} {r c : Nat} (m : Mat α)
    (h : ∀ b ∈ parts m, InMem b mem) : Tracks (m.get_unchecked cfg mem r c) (at2d cfg m r c) := by
  induction m with
  | base b =>
    refine tracks_element (convert_2d_raw_ne_ub cfg _ _ _)
      (fun k hk => get_unchecked_in (h b (by simp [parts])) hk) fun k hk => ?_
    simp [Container.get_unchecked, hk]
  | ref m ih => exact ih h
  | addition m1 m2 l ih1 ih2 =>
    simp only [at2d, parts, List.map_append]
    exact (ih1 fun b hb => h b (by simp [parts, hb])).bind fun v _ =>
      (ih2 fun b hb => h b (by simp [parts, hb])).then_ok fun w _ => ⟨_, rfl⟩
  | scalarMult m s ih => exact (ih h).then_ok fun w _ => ⟨_, rfl⟩

theorem tracks_at1d [Add α] [Mul α] {mem : Mem α} {k : Nat} (m : Mat α)
    (h : ∀ b ∈ parts m, InMem b mem) : Tracks (m.get1d_unchecked cfg mem k) (at1d cfg m k) := by
  induction m with
  | base b =>
    refine tracks_element (convert_1d_raw_ne_ub cfg _ _)
      (fun k hk => get_unchecked_in (h b (by simp [parts])) hk) fun k hk => ?_
    simp [Container.get_unchecked, hk]
  | ref m ih => exact ih h
  | addition m1 m2 l ih1 ih2 =>
    simp only [at1d, parts, List.map_append]
    exact (ih1 fun b hb => h b (by simp [parts, hb])).bind fun v _ =>
      (ih2 fun b hb => h b (by simp [parts, hb])).then_ok fun w _ => ⟨_, rfl⟩
  | scalarMult m s ih => exact (ih h).then_ok fun w _ => ⟨_, rfl⟩

theorem tracks_mut2d (b : BaseMatrix) (r c : Nat) :
    Tracks (b.get_unchecked_mut cfg r c) (at2d cfg (.base b : Mat α) r c) :=
  tracks_element (convert_2d_raw_ne_ub cfg _ _ _)
    (fun k hk => ⟨_, by simp [Container.get_unchecked_mut, hk]; rfl⟩)
    fun k hk => by simp [Container.get_unchecked_mut, hk]

theorem tracks_mut1d (b : BaseMatrix) (k : Nat) :
    Tracks (b.get1d_unchecked_mut cfg k) (at1d cfg (.base b : Mat α) k) :=
  tracks_element (convert_1d_raw_ne_ub cfg _ _)
    (fun k hk => ⟨_, by simp [Container.get_unchecked_mut, hk]; rfl⟩)
    fun k hk => by simp [Container.get_unchecked_mut, hk]

/-- Undefined exactly if one of the accesses leaves its container. -/
def UbIf {β : Type} (o : Out β) (xs : List Access) : Prop := o = .ub ↔ LeavesContainer xs

omit [Target] in
theorem UbIf.panic {β : Type} : UbIf (.panic : Out β) [] := by simp [UbIf, leaves_nil]

theorem UbIf.checked2d {β : Type} {m : Mat α} {r c : Nat} {o : Out β}
    (h : Tracks o (at2d cfg m r c)) :
    UbIf (assert_dimension r c m.layout.dim >>= fun _ => o) (checked2d cfg m r c) := by
  unfold assert_dimension Spec.checked2d
  by_cases h1 : r < m.layout.dim.1
  · by_cases h2 : c < m.layout.dim.2
    · rw [Out.assert_pos h1, Out.bind_ok, Out.assert_pos h2, Out.bind_ok, if_pos ⟨h1, h2⟩]
      exact h.ub
    · rw [Out.assert_pos h1, Out.bind_ok, Out.assert_neg h2, if_neg (fun h => h2 h.2)]
      exact .panic
  · rw [Out.assert_neg h1, if_neg (fun h => h1 h.1)]
    exact .panic

omit [Target] in
theorem UbIf.whenOk {β γ : Type} {o : Out β} {f : β → Out γ} {g : β → List Access} (ho : o ≠ .ub)
    (h : ∀ v, o = .ok v → UbIf (f v) (g v)) : UbIf (o >>= f) (whenOk o g) := by
  cases o with
  | ok v => exact h v rfl
  | panic => exact .panic
  | ub => exact absurd rfl ho

theorem UbIf.checked1d {β : Type} {m : Mat α} {k : Nat} {o : Out β}
    (h : Tracks o (at1d cfg m k)) :
    UbIf (m.layout.number_of_elements cfg >>= fun n => assert_dimension1d k n >>= fun _ => o)
      (checked1d cfg m k) := by
  refine .whenOk (number_of_elements_ne_ub cfg _) fun n _ => ?_
  unfold assert_dimension1d
  by_cases hk : k < n
  · rw [Out.assert_pos hk, Out.bind_ok, if_pos hk]
    exact h.ub
  · rw [Out.assert_neg hk, if_neg hk]
    exact .panic

omit [Target] in
/-- Followed by something that is never undefined. -/
theorem UbIf.done {β γ : Type} {o : Out β} {f : β → Out γ} {xs : List Access} (h : UbIf o xs)
    (hf : ∀ v, o = .ok v → f v ≠ .ub) : UbIf (o >>= f) xs := by
  unfold UbIf at *
  rw [Out.bind_eq_ub, ← h]
  exact ⟨fun h => h.elim id fun ⟨v, hv, h⟩ => absurd h (hf v hv), .inl⟩

theorem from_data_tracks {d : Container} {l : Layout} :
    (from_data cfg .dynamic .dynamic d l ≠ .ub) ∧
    ((∃ m, from_data cfg .dynamic .dynamic d l = .ok m) ↔
      ∃ e, l.number_of_elements cfg = .ok e ∧ e ≤ d.len) := by
  unfold from_data BaseMatrix.new
  cases h : l.number_of_elements cfg with
  | ub => exact absurd h (number_of_elements_ne_ub cfg l)
  | panic => simp
  | ok n =>
    rw [Out.bind_ok]
    by_cases hn : n ≤ d.number_of_elements
    · rw [Out.assert_pos hn]
      simp [Container.number_of_elements] at hn
      simp [hn]
    · rw [Out.assert_neg hn]
      simp only [Container.number_of_elements] at hn
      simp [hn]

theorem tracks_view {d : Container} {i : Int} {o : Out Ptr} {dim : Nat × Nat} {l : Layout}
    (ho : o = if 0 ≤ i ∧ i ≤ d.len then .ok ⟨d, i.toNat⟩ else .ub) :
    Tracks (o >>= fun p => from_pointer_strided cfg p dim l) [viewOf cfg d (.ok i) dim l] := by
  by_cases hi : 0 ≤ i ∧ i ≤ d.len
  · rw [ho, if_pos hi, Out.bind_ok]
    have hs : from_pointer_strided cfg ⟨d, i.toNat⟩ dim l = (viewOf cfg d (.ok i) dim l).size >>=
        fun n => (⟨d, i.toNat⟩ : Ptr).from_raw_parts n >>= fun w =>
          from_data cfg .dynamic .dynamic w l := by
      simp only [from_pointer_strided, viewOf, Out.bind_assoc']
    have hne : (viewOf cfg d (.ok i) dim l).size ≠ .ub := by
      simp only [viewOf, ne_eq, Out.bind_eq_ub, Cfg.sub_ne_ub, Cfg.add_ne_ub,
        convert_2d_raw_ne_ub, and_false, exists_false, or_self, not_false_eq_true]
    rw [hs]
    cases hn : (viewOf cfg d (.ok i) dim l).size with
    | ub => exact absurd hn hne
    | panic =>
      constructor
      · simp only [leaves_cons, leaves_nil, Access.beyond, hn]
        simp [viewOf]; omega
      · simp [Access.inside, hn]
    | ok n =>
      rw [Out.bind_ok]
      unfold Ptr.from_raw_parts
      by_cases hw : i.toNat + n ≤ d.len
      · rw [if_pos hw, Out.bind_ok]
        obtain ⟨f1, f2⟩ := from_data_tracks (cfg := cfg)
          (d := ⟨d.buf, d.off + i.toNat, n⟩) (l := l)
        constructor
        · simp only [f1, leaves_cons, leaves_nil, Access.beyond, hn, false_iff]
          simp [viewOf]; omega
        · rw [f2]
          simp only [List.mem_singleton, forall_eq, Access.inside, hn]
          constructor
          · intro h
            exact ⟨i, n, rfl, rfl, hi.1, by simp only [viewOf]; omega, h⟩
          · rintro ⟨i', n', -, h1, -, -, h2⟩
            obtain rfl : n = n' := by simpa using h1
            exact h2
      · rw [if_neg hw]
        constructor
        · simp only [leaves_cons, leaves_nil, Access.beyond, hn]
          simp [viewOf]; omega
        · simp only [List.mem_singleton, forall_eq, Access.inside, hn]
          simp [viewOf]; omega
  · rw [ho, if_neg hi]
    constructor
    · simp only [leaves_cons, leaves_nil, Access.beyond]
      simp [viewOf]; omega
    · simp only [List.mem_singleton, forall_eq, Access.inside]
      simp [viewOf]; omega

theorem ubIf_block {b : BaseMatrix} (hb : hasBlock b = true) (tl dim : Nat × Nat) :
    UbIf (b.block cfg tl dim) (blockOf cfg b tl dim) := by
  have key : ∀ l : Layout, b.layout.stride = .ok (claimed b.layout) →
      BaseMatrix.strideLayout b.layout dim (claimed b.layout) = some l →
      UbIf (b.block cfg tl dim) (whenOk (do
        let r ← cfg.add tl.1 dim.1
        let c ← cfg.add tl.2 dim.2
        Out.assert (r ≤ b.layout.dim.1 ∧ c ≤ b.layout.dim.2)) fun _ =>
          [viewOf cfg b.data (Out.toInt (b.layout.convert_2d_raw cfg tl.1 tl.2)) dim l]) := by
    intro l h1 h2
    have e : b.block cfg tl dim = (do
        let r ← cfg.add tl.1 dim.1
        let c ← cfg.add tl.2 dim.2
        Out.assert (r ≤ b.layout.dim.1 ∧ c ≤ b.layout.dim.2)) >>= fun _ =>
          b.layout.convert_2d_raw cfg tl.1 tl.2 >>= fun i =>
            b.get_pointer.add i >>= fun p => from_pointer_strided cfg p dim l := by
      simp only [BaseMatrix.block, Out.bind_assoc', h1, Out.bind_ok, h2]
    rw [e]
    refine .whenOk ?_ fun _ _ => ?_
    · simp only [ne_eq, Out.bind_eq_ub, Cfg.add_ne_ub, false_or, not_exists, not_and]
      intro _ _ _ _
      unfold Out.assert
      split <;> simp
    · cases hi : b.layout.convert_2d_raw cfg tl.1 tl.2 with
      | ub => exact absurd hi (convert_2d_raw_ne_ub cfg _ _ _)
      | panic => simp [UbIf, leaves_cons, leaves_nil, Access.beyond, viewOf, Out.toInt]
      | ok i =>
        refine (tracks_view (i := (i : Int)) ?_).ub
        simp [Ptr.add, BaseMatrix.get_pointer, Container.get_pointer]
  unfold blockOf
  unfold hasBlock at hb
  cases hl : b.layout with
  | rowMajor l => simpa [hl] using key _ (by rw [hl]; rfl) (by rw [hl]; rfl)
  | columnMajor l => simpa [hl] using key _ (by rw [hl]; rfl) (by rw [hl]; rfl)
  | asRowMajor l => simpa [hl] using key _ (by rw [hl]; rfl) (by rw [hl]; rfl)
  | asColumnMajor l => simpa [hl] using key _ (by rw [hl]; rfl) (by rw [hl]; rfl)
  | _ => simp [hl] at hb

theorem ubIf_split {b : BaseMatrix} (hb : hasSplit b = true) (p : Nat × Nat) :
    UbIf (b.split_in_four_mut cfg p) (splitOf cfg b p) := by
  unfold hasSplit at hb
  obtain ⟨l, hl⟩ : ∃ l, b.layout = .rowMajor l := by
    cases hl : b.layout <;> simp_all
  have hoff : ∀ i : Nat, b.get_pointer.offset (asIsize i) = if 0 ≤ asIsize i ∧ asIsize i ≤ b.data.len
      then .ok ⟨b.data, (asIsize i).toNat⟩ else .ub := by
    intro i
    simp [Ptr.offset, BaseMatrix.get_pointer, Container.get_pointer]
  have hst : b.layout.stride = .ok (claimed b.layout) := by rw [hl]; rfl
  unfold BaseMatrix.split_in_four_mut splitOf
  rw [hst]
  simp only [hl, Out.bind_ok]
  simp only [← hl]
  cases h1 : cfg.sub b.layout.dim.2 p.2 with
  | ub => exact absurd h1 (Cfg.sub_ne_ub _ _ _)
  | panic => exact .panic
  | ok right =>
  cases h2 : cfg.sub b.layout.dim.1 p.1 with
  | ub => exact absurd h2 (Cfg.sub_ne_ub _ _ _)
  | panic => exact .panic
  | ok below =>
  simp only [Out.bind_ok]
  cases h3 : b.layout.convert_2d_raw cfg 0 0 with
  | ub => exact absurd h3 (convert_2d_raw_ne_ub cfg _ _ _)
  | panic => exact .panic
  | ok s0 =>
  cases h4 : b.layout.convert_2d_raw cfg 0 p.2 with
  | ub => exact absurd h4 (convert_2d_raw_ne_ub cfg _ _ _)
  | panic => exact .panic
  | ok s1 =>
  cases h5 : b.layout.convert_2d_raw cfg p.1 0 with
  | ub => exact absurd h5 (convert_2d_raw_ne_ub cfg _ _ _)
  | panic => exact .panic
  | ok s2 =>
  cases h6 : b.layout.convert_2d_raw cfg p.1 p.2 with
  | ub => exact absurd h6 (convert_2d_raw_ne_ub cfg _ _ _)
  | panic => exact .panic
  | ok s3 =>
  simp only [Out.bind_ok, Out.pure_eq, whenOk, List.map_cons, List.map_nil]
  have t := (tracks_view (cfg := cfg) (dim := p) (l := .asRowMajor ⟨p, claimed b.layout⟩)
    (hoff s0)).bind (f := fun b0 => (b.get_pointer.offset (asIsize s1) >>= fun q =>
      from_pointer_strided cfg q (p.1, right) (.asRowMajor ⟨(p.1, right), claimed b.layout⟩)) >>=
      fun b1 => (b.get_pointer.offset (asIsize s2) >>= fun q =>
      from_pointer_strided cfg q (below, p.2) (.asRowMajor ⟨(below, p.2), claimed b.layout⟩)) >>=
      fun b2 => (b.get_pointer.offset (asIsize s3) >>= fun q =>
      from_pointer_strided cfg q (below, right) (.asRowMajor ⟨(below, right), claimed b.layout⟩)) >>=
      fun b3 => .ok (b0, b1, b2, b3)) fun _ _ => (tracks_view (hoff s1)).bind fun _ _ =>
      (tracks_view (hoff s2)).bind fun _ _ => (tracks_view (hoff s3)).then_ok fun _ _ => ⟨_, rfl⟩
  simp only [Out.bind_assoc'] at t
  exact t.ub

omit [Target] in
theorem InMem.size {b : BaseMatrix} {mem mem' : Mem α} (h : InMem b mem)
    (hs : mem'.size b.data.buf = mem.size b.data.buf) : InMem b mem' := by
  unfold InMem at *; omega

omit [Target] in
theorem InMem.holds {b : BaseMatrix} {mem : Mem α} (h : InMem b mem) {p : Loc}
    (hp : Props.Holds b.data p) : p.idx < mem.size p.buf := by
  obtain ⟨h1, h2, h3⟩ := hp
  unfold InMem at h
  rw [h1]; omega

theorem ubIf_for_each {σ : Type} {b : BaseMatrix} {mem : Mem α} (h : InMem b mem)
    (f : σ → α → σ × α) (s : σ) :
    UbIf (b.for_each cfg f s mem) (everything cfg (.base b : Mat α)) := by
  refine .whenOk (number_of_elements_ne_ub cfg _) fun n _ => ?_
  refine (Tracks.forRange (fun st : σ × Mem α => InMem b st.2) (fun i st hst => ?_)
    (fun i st st' hst hb => ?_) h n).1.ub
  · refine (tracks_mut1d b i).then_ok fun p hp => ?_
    have hp' := get1d_unchecked_mut_holds hp
    obtain ⟨v, hv⟩ := read_in (hst.holds hp')
    obtain ⟨m, hm⟩ := write_in (mem := st.2) (f st.1 v).2 (hst.holds hp')
    exact ⟨((f st.1 v).1, m), by simp only [hv, Out.bind_ok, hm]; rfl⟩
  · simp only [Out.bind_eq_ok, Out.pure_eq] at hb
    obtain ⟨p, hp, v, hv, m, hm, hb⟩ := hb
    cases hb
    exact hst.size ((Only.write (get1d_unchecked_mut_holds hp) hm).size _)

/-! ## Evaluation -/

theorem numel_index_layout (l : Layout) :
    l.index_layout.number_of_elements cfg = l.number_of_elements cfg := by
  cases l <;> rfl

omit [Target] in
theorem from_dimension_index {l : Layout} (h : ¬ (l.indexKind = .columnVector ∧ l.dim.1 ≠ 1)) :
    l.indexKind.from_dimension l.dim = .ok l.index_layout := by
  cases l <;> simp_all [Layout.indexKind, BaseKind.from_dimension, RowMajor.from_dimension,
    ColumnMajor.from_dimension, RowVector.from_dimension, ColumnVector.from_dimension,
    UpperTriangular.from_dimension, Layout.dim, Layout.index_layout, Out.assert,
    RowMajor.index_layout, ColumnMajor.index_layout, RowVector.index_layout,
    ColumnVector.index_layout, ArbitraryStrideRowMajor.index_layout,
    ArbitraryStrideColumnMajor.index_layout, ArbitraryStrideRowVector.index_layout,
    ArbitraryStrideColumnVector.index_layout, UpperTriangular.index_layout]

omit [Target] in
theorem from_dimension_column {l : Layout} (h : l.indexKind = .columnVector ∧ l.dim.1 ≠ 1) :
    l.indexKind.from_dimension l.dim = .panic := by
  obtain ⟨h1, h2⟩ := h
  rw [h1]
  simp [BaseKind.from_dimension, ColumnVector.from_dimension, Out.assert, h2]

/-- Making a new matrix with a layout. -/
theorem new_eq [Zero α] {l : Layout} {rs cs : SizeId} {mem : Mem α} :
    (l.number_of_elements cfg >>= fun n => Container.newVector cfg mem n >>= fun d =>
      from_data cfg rs cs d.1 l >>= fun m => pure (m, d.2)) =
    match brandNew cfg mem.bufs.length l (rs, cs) with
    | some m => .ok (m, ⟨mem.bufs ++ [List.replicate m.data.len 0]⟩)
    | none => .panic := by
  unfold brandNew
  cases h : l.number_of_elements cfg with
  | ub => exact absurd h (number_of_elements_ne_ub cfg l)
  | panic => rfl
  | ok n =>
    rw [Out.bind_ok]
    by_cases hn : n * cfg.item.size ≤ isizeMax
    · simp [Container.newVector, hn, from_data, BaseMatrix.new, h, Out.assert,
        Container.number_of_elements, Mem.alloc]
    · simp [Container.newVector, hn]

theorem zeros_eq [Zero α] {m : Mat α} {mem : Mem α} :
    zeros_from_dim cfg m.layout.indexKind m.layout.dim.1 m.layout.dim.2 mem =
    if m.layout.indexKind = .columnVector ∧ m.layout.dim.1 ≠ 1 then .panic else
    match brandNew cfg mem.bufs.length m.layout.index_layout (.dynamic, .dynamic) with
    | some m => .ok (m, ⟨mem.bufs ++ [List.replicate m.data.len 0]⟩)
    | none => .panic := by
  unfold zeros_from_dim
  by_cases h : m.layout.indexKind = .columnVector ∧ m.layout.dim.1 ≠ 1
  · rw [if_pos h]
    have := from_dimension_column h
    rw [show (m.layout.dim.1, m.layout.dim.2) = m.layout.dim from rfl, this]
    rfl
  · rw [if_neg h, ← new_eq, show (m.layout.dim.1, m.layout.dim.2) = m.layout.dim from rfl,
      from_dimension_index h]
    rfl

theorem brandNew_some {buf : Nat} {l : Layout} {sizes : SizeId × SizeId} {R : BaseMatrix}
    (h : brandNew cfg buf l sizes = some R) : l.number_of_elements cfg = .ok R.data.len ∧
      R = ⟨⟨buf, 0, R.data.len⟩, l, sizes.1, sizes.2⟩ := by
  unfold brandNew at h
  split at h
  · rename_i n hn
    split at h
    · cases h; exact ⟨hn, rfl⟩
    · cases h
  · cases h

theorem brandNew_isSome {buf buf' : Nat} {l : Layout} {sizes : SizeId × SizeId} :
    (brandNew cfg buf l sizes).isSome = (brandNew cfg buf' l sizes).isSome := by
  unfold brandNew
  split
  · split <;> rfl
  · rfl

theorem convert_1d_raw_index (l : Layout) (k : Nat) : l.index_layout.convert_1d_raw cfg k = .ok k := by
  cases l <;> rfl

omit [Target] in
theorem InMem.append {b : BaseMatrix} {mem : Mem α} (h : InMem b mem) (ys : List α) :
    InMem b ⟨mem.bufs ++ [ys]⟩ := by
  unfold InMem at *
  by_cases hb : b.data.buf < mem.bufs.length
  · simpa [Mem.size, List.getElem?_append_left hb] using h
  · have : mem.size b.data.buf = 0 := by
      simp [Mem.size, List.getElem?_eq_none (Nat.le_of_not_lt hb)]
    omega

theorem ubIf_eval [Zero α] [Add α] [Mul α] {m : Mat α} {mem : Mem α}
    (h : ∀ b ∈ parts m, InMem b mem) : UbIf (m.eval cfg mem) (evalOf cfg m) := by
  unfold Mat.eval evalOf
  simp only [zeros_eq]
  by_cases hk : m.layout.indexKind = .columnVector ∧ m.layout.dim.1 ≠ 1
  · rw [if_pos hk, if_pos hk]; exact .panic
  rw [if_neg hk, if_neg hk]
  have hsome := brandNew_isSome (cfg := cfg) (buf := mem.bufs.length) (buf' := 0)
    (l := m.layout.index_layout) (sizes := (.dynamic, .dynamic))
  cases hR : brandNew cfg mem.bufs.length m.layout.index_layout (.dynamic, .dynamic) with
  | none =>
    rw [hR] at hsome
    cases hR' : brandNew cfg 0 m.layout.index_layout (.dynamic, .dynamic) with
    | none => exact .panic
    | some R' => rw [hR'] at hsome; simp at hsome
  | some R =>
    rw [hR] at hsome
    cases hR' : brandNew cfg 0 m.layout.index_layout (.dynamic, .dynamic) with
    | none => rw [hR'] at hsome; simp at hsome
    | some R' =>
      obtain ⟨hn, hRe⟩ := brandNew_some hR
      rw [numel_index_layout] at hn
      have hRd : R.data = ⟨mem.bufs.length, 0, R.data.len⟩ := congrArg BaseMatrix.data hRe
      have hRl : R.layout = m.layout.index_layout := congrArg BaseMatrix.layout hRe
      simp only [Out.bind_ok]
      refine .whenOk (number_of_elements_ne_ub cfg _) fun n hn' => ?_
      obtain rfl : R.data.len = n := by simpa [hn] using hn'
      refine UbIf.done (f := fun mem1 => .ok (R, mem1)) ?_ (by simp)
      have hinR : InMem R (⟨mem.bufs ++ [List.replicate R.data.len 0]⟩ : Mem α) := by
        unfold InMem
        rw [hRd]
        simp [Mem.size]
      have key : ∀ k, k ≤ R.data.len → Tracks (Householder.forRange k (fun index mem => do
          let v ← m.get1d_unchecked cfg mem index
          let p ← R.get1d_unchecked_mut cfg index
          mem.write p v) (⟨mem.bufs ++ [List.replicate R.data.len 0]⟩ : Mem α))
            ((List.range k).flatMap (at1d cfg m)) ∧
          ∀ mem', Householder.forRange k (fun index mem => do
          let v ← m.get1d_unchecked cfg mem index
          let p ← R.get1d_unchecked_mut cfg index
          mem.write p v) (⟨mem.bufs ++ [List.replicate R.data.len 0]⟩ : Mem α) = .ok mem' →
            InMem R mem' ∧ ∀ b ∈ parts m, InMem b mem' := by
        intro k
        induction k with
        | zero =>
          refine fun _ => ⟨.pure _, fun mem' h' => ?_⟩
          obtain rfl := by simpa [Householder.forRange] using h'
          exact ⟨hinR, fun b hb => (h b hb).append _⟩
        | succ k ih =>
          intro hk'
          obtain ⟨ih1, ih2⟩ := ih (by omega)
          rw [forRange_succ, List.range_succ, List.flatMap_append, List.flatMap_singleton]
          constructor
          · refine ih1.bind fun mem1 h1 => ?_
            obtain ⟨i1, i2⟩ := ih2 mem1 h1
            refine (tracks_at1d m i2).then_ok fun v _ => ?_
            have hp : R.get1d_unchecked_mut cfg k = .ok ⟨R.data.buf, R.data.off + k⟩ := by
              simp [BaseMatrix.get1d_unchecked_mut, hRl, convert_1d_raw_index,
                Container.get_unchecked_mut, show k < R.data.len by omega]
            obtain ⟨mem2, hm2⟩ := write_in v (i1.holds (get1d_unchecked_mut_holds hp))
            exact ⟨mem2, by rw [hp, Out.bind_ok, hm2]⟩
          · intro mem' h'
            obtain ⟨mem1, h1, h2⟩ := Out.bind_eq_ok.1 h'
            simp only [Out.bind_eq_ok] at h2
            obtain ⟨v, -, p, hp, hw⟩ := h2
            obtain ⟨i1, i2⟩ := ih2 mem1 h1
            have ho := Only.write (get1d_unchecked_mut_holds hp) hw
            exact ⟨i1.size (ho.size _), fun b hb => (i2 b hb).size (ho.size _)⟩
      exact (key _ le_rfl).1.ub

/-! ## Products -/

theorem addr_lookedAt (m : BaseMatrix) (i j : Nat) :
    m.data.off + gemmAddr m.get_pointer (asIsize (claimed m.layout).1)
      (asIsize (claimed m.layout).2) i j = lookedAt m i j := by
  simp only [gemmAddr, lookedAt, BaseMatrix.get_pointer, Container.get_pointer]
  push_cast
  ring

theorem allValid_iff (m : BaseMatrix) :
    gemmAllValid m.layout.dim.1 m.layout.dim.2 m.get_pointer (asIsize (claimed m.layout).1)
      (asIsize (claimed m.layout).2) ↔ LooksInside m := by
  unfold gemmAllValid LooksInside gemmValid
  have h : ∀ i j, (0 ≤ gemmAddr m.get_pointer (asIsize (claimed m.layout).1)
      (asIsize (claimed m.layout).2) i j ∧ gemmAddr m.get_pointer (asIsize (claimed m.layout).1)
      (asIsize (claimed m.layout).2) i j < m.get_pointer.prov.len) ↔
      (m.data.off ≤ lookedAt m i j ∧ lookedAt m i j < m.data.off + m.data.len) := by
    intro i j
    have := addr_lookedAt m i j
    rw [show m.get_pointer.prov = m.data from rfl]
    omega
  simp only [h]
  exact ⟨fun h i j hi hj => h i hi j hj, fun h i hi j hj => h i j hi hj⟩

theorem loc_lookedAt {m : BaseMatrix} (h : LooksInside m) {i j : Nat} (hi : i < m.layout.dim.1)
    (hj : j < m.layout.dim.2) :
    gemmLoc m.get_pointer (asIsize (claimed m.layout).1) (asIsize (claimed m.layout).2) i j =
      ⟨m.data.buf, (lookedAt m i j).toNat⟩ := by
  have h1 := addr_lookedAt m i j
  have h2 := h i j hi hj
  unfold gemmLoc
  rw [show m.get_pointer.prov = m.data from rfl]
  congr 1
  omega

theorem loc_eq_iff {x y : BaseMatrix} (hx : LooksInside x) (hy : LooksInside y) {i j i' j' : Nat}
    (hi : i < x.layout.dim.1) (hj : j < x.layout.dim.2) (hi' : i' < y.layout.dim.1)
    (hj' : j' < y.layout.dim.2) :
    gemmLoc x.get_pointer (asIsize (claimed x.layout).1) (asIsize (claimed x.layout).2) i j =
      gemmLoc y.get_pointer (asIsize (claimed y.layout).1) (asIsize (claimed y.layout).2) i' j' ↔
    x.data.buf = y.data.buf ∧ lookedAt x i j = lookedAt y i' j' := by
  have h1 := hx i j hi hj
  have h2 := hy i' j' hi' hj'
  rw [loc_lookedAt hx hi hj, loc_lookedAt hy hi' hj', Loc.mk.injEq]
  exact and_congr_right fun _ => by omega

theorem gemmPre_iff {a b c : BaseMatrix} (hd : Compatible a.layout b.layout c.layout) :
    gemmPre a.layout.dim.1 a.layout.dim.2 b.layout.dim.2
      a.get_pointer (asIsize (claimed a.layout).1) (asIsize (claimed a.layout).2)
      b.get_pointer (asIsize (claimed b.layout).1) (asIsize (claimed b.layout).2)
      c.get_pointer (asIsize (claimed c.layout).1) (asIsize (claimed c.layout).2) ↔
    KernelContract a b c := by
  obtain ⟨d1, d2, d3⟩ := hd
  unfold gemmPre KernelContract
  have va := allValid_iff a
  have vb := allValid_iff b
  have vc := allValid_iff c
  rw [← d1] at vb
  rw [d2, d3] at vc
  rw [va, vb, vc]
  refine and_congr_right fun ha => and_congr_right fun hb => and_congr_right fun hc => ?_
  refine and_congr ?_ (and_congr ?_ ?_)
  · unfold gemmNoAlias
    constructor
    · intro h i j i' j' hi hj hi' hj' e
      exact h i (by omega) j (by omega) i' (by omega) j' (by omega) ((loc_eq_iff hc hc hi hj hi' hj').2 ⟨rfl, e⟩)
    · intro h i hi j hj i' hi' j' hj' e
      exact h i j i' j' (by omega) (by omega) (by omega) (by omega)
        ((loc_eq_iff hc hc (by omega) (by omega) (by omega) (by omega)).1 e).2
  · unfold gemmDisjoint LooksApart
    constructor
    · intro h hbuf i j i' j' hi hj hi' hj' e
      exact h i (by omega) j (by omega) i' (by omega) j' (by omega) ((loc_eq_iff hc ha hi hj hi' hj').2 ⟨hbuf, e⟩)
    · intro h i hi j hj i' hi' j' hj' e
      obtain ⟨e1, e2⟩ := (loc_eq_iff hc ha (by omega) (by omega) (by omega) (by omega)).1 e
      exact h e1 i j i' j' (by omega) (by omega) (by omega) (by omega) e2
  · unfold gemmDisjoint LooksApart
    constructor
    · intro h hbuf i j i' j' hi hj hi' hj' e
      exact h i (by omega) j (by omega) i' (by omega) j' (by omega) ((loc_eq_iff hc hb hi hj hi' hj').2 ⟨hbuf, e⟩)
    · intro h i hi j hj i' hi' j' hj' e
      obtain ⟨e1, e2⟩ := (loc_eq_iff hc hb (by omega) (by omega) (by omega) (by omega)).1 e
      exact h e1 i j i' j' (by omega) (by omega) (by omega) (by omega) e2

theorem looked_get {m : BaseMatrix} {mem : Mem α} (h : LooksInside m) (hm : InMem m mem) (x : α)
    {i j : Nat} (hi : i < m.layout.dim.1) (hj : j < m.layout.dim.2) :
    mem.get? (gemmLoc m.get_pointer (asIsize (claimed m.layout).1) (asIsize (claimed m.layout).2) i j)
      = some ((mem.get? (gemmLoc m.get_pointer (asIsize (claimed m.layout).1)
          (asIsize (claimed m.layout).2) i j)).getD x) := by
  have h1 := h i j hi hj
  rw [loc_lookedAt h hi hj]
  obtain ⟨v, hv⟩ := Mem.get?_isSome_iff (mem := mem)
    (p := ⟨m.data.buf, (lookedAt m i j).toNat⟩) |>.2 (by unfold InMem at hm; simp only; omega)
  simp [hv]

/-- `matmul` is undefined exactly if it calls the kernel and breaks its contract. -/
theorem matmul_ub {kern : Kern α} {alpha beta : α} {a b c : BaseMatrix} {mem : Mem α}
    (ha : InMem a mem) (hb : InMem b mem) (hc : InMem c mem) :
    matmul kern alpha a b beta c mem = .ub ↔ BreaksContract a b c := by
  unfold BreaksContract
  by_cases hd : Compatible a.layout b.layout c.layout
  swap
  · simp only [hd, false_and, iff_false]
    have hd' : ¬ (a.layout.dim.2 = b.layout.dim.1 ∧ c.layout.dim.1 = a.layout.dim.1 ∧
      c.layout.dim.2 = b.layout.dim.2) := hd
    simp only [matmul, Out.assert_neg hd']
    simp
  by_cases ht : NotTriangular a.layout ∧ NotTriangular b.layout ∧ NotTriangular c.layout
  swap
  · rw [matmul_tri kern alpha beta a b c mem ht]
    simp only [reduceCtorEq, false_iff]
    exact fun h => ht ⟨h.2.1, h.2.2.1, h.2.2.2.1⟩
  have e : matmul kern alpha a b beta c mem =
      gemm kern a.layout.dim.1 a.layout.dim.2 b.layout.dim.2 alpha
      a.get_pointer (asIsize (claimed a.layout).1) (asIsize (claimed a.layout).2)
      b.get_pointer (asIsize (claimed b.layout).1) (asIsize (claimed b.layout).2) beta
      c.get_pointer (asIsize (claimed c.layout).1) (asIsize (claimed c.layout).2) mem := by
    have hd' : a.layout.dim.2 = b.layout.dim.1 ∧ c.layout.dim.1 = a.layout.dim.1 ∧
      c.layout.dim.2 = b.layout.dim.2 := hd
    simp only [matmul, Out.assert_pos hd', stride_claimed ht.1, stride_claimed ht.2.1,
      stride_claimed ht.2.2, Out.bind_ok]
  rw [e]
  simp only [hd, ht.1, ht.2.1, ht.2.2, true_and]
  by_cases hp : KernelContract a b c
  · have hp' := (gemmPre_iff hd).2 hp
    obtain ⟨ka, kb, kc, -⟩ := hp
    obtain ⟨d1, d2, d3⟩ := hd
    obtain ⟨mem', e', -⟩ := gemm_ok (kern := kern) (alpha := alpha) (beta := beta) hp'
      (fun i l hi hl => looked_get ka ha alpha hi hl)
      (fun l j hl hj => looked_get kb hb alpha (by omega) hj)
      (fun i j hi hj => looked_get kc hc alpha (by omega) (by omega))
    rw [e']
    simp only [reduceCtorEq, false_iff, not_not]
    exact (gemmPre_iff ⟨d1, d2, d3⟩).1 hp'
  · simp only [hp, not_false_eq_true, iff_true]
    unfold gemm
    rw [if_neg (fun h => hp ((gemmPre_iff hd).1 h))]

theorem dot_zeros_eq [Zero α] [One α] {kern : Kern α} {i : DotImpl} {a b : BaseMatrix} {mem : Mem α} :
    dot cfg kern i a b mem =
    match dotResult cfg i a b mem.bufs.length with
    | some R => matmul kern 1 a b 0 R ⟨mem.bufs ++ [List.replicate R.data.len 0]⟩ >>= fun m =>
        .ok (R, m)
    | none => .panic := by
  cases i with
  | matMat =>
    have e : zeros_from_dim cfg .rowMajor a.layout.dim.1 b.layout.dim.2 mem =
        match dotResult cfg .matMat a b mem.bufs.length with
        | some m => .ok (m, ⟨mem.bufs ++ [List.replicate m.data.len 0]⟩)
        | none => .panic := by
      unfold dotResult
      rw [← new_eq]
      rfl
    simp only [dot, dot_mm, e]
    cases dotResult cfg .matMat a b mem.bufs.length <;> rfl
  | rowMat =>
    have e : RowVectorD.zeros_from_dim cfg a.layout.dim.1 b.layout.dim.2 mem =
        match dotResult cfg .rowMat a b mem.bufs.length with
        | some m => .ok (m, ⟨mem.bufs ++ [List.replicate m.data.len 0]⟩)
        | none => .panic := by
      unfold dotResult RowVectorD.zeros_from_dim
      by_cases h : a.layout.dim.1 = 1
      · simp only [Out.assert_pos h, if_pos h, Out.bind_ok]
        rw [← new_eq]
        rfl
      · simp only [Out.assert_neg h, if_neg h]; rfl
    simp only [dot, dot_vm, e]
    cases dotResult cfg .rowMat a b mem.bufs.length <;> rfl
  | matCol =>
    have e : ColumnVectorD.zeros_from_dim cfg a.layout.dim.1 b.layout.dim.2 mem =
        match dotResult cfg .matCol a b mem.bufs.length with
        | some m => .ok (m, ⟨mem.bufs ++ [List.replicate m.data.len 0]⟩)
        | none => .panic := by
      unfold dotResult ColumnVectorD.zeros_from_dim
      by_cases h : b.layout.dim.2 = 1
      · simp only [Out.assert_pos h, if_pos h, Out.bind_ok]
        rw [← new_eq]
        rfl
      · simp only [Out.assert_neg h, if_neg h]; rfl
    simp only [dot, dot_mv, e]
    cases dotResult cfg .matCol a b mem.bufs.length <;> rfl

theorem dot_ub [Zero α] [One α] {kern : Kern α} {i : DotImpl} {a b : BaseMatrix} {mem : Mem α}
    (ha : InMem a mem) (hb : InMem b mem) :
    dot cfg kern i a b mem = .ub ↔
      ∃ c, dotResult cfg i a b mem.bufs.length = some c ∧ BreaksContract a b c := by
  rw [dot_zeros_eq]
  cases h : dotResult cfg i a b mem.bufs.length with
  | none => simp
  | some R =>
    have hR : R.data = ⟨mem.bufs.length, 0, R.data.len⟩ := by
      unfold dotResult at h
      cases i with
      | matMat => exact congrArg BaseMatrix.data (brandNew_some h).2
      | rowMat =>
        simp only at h
        split at h
        · exact congrArg BaseMatrix.data (brandNew_some h).2
        · cases h
      | matCol =>
        simp only at h
        split at h
        · exact congrArg BaseMatrix.data (brandNew_some h).2
        · cases h
    have hRm : InMem R (⟨mem.bufs ++ [List.replicate R.data.len 0]⟩ : Mem α) := by
      unfold InMem
      rw [hR]
      simp [Mem.size]
    simp only [Out.bind_eq_ub, Option.some.injEq, exists_eq_left', matmul_ub (ha.append _)
      (hb.append _) hRm]
    simp

end Householder.Spec
