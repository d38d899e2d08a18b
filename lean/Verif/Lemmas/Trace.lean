import Verif.Lemmas.Expr
import Verif.Spec.Trace

/-!
# Lemmas about recorded computations
-/

namespace Householder.Spec

variable {α β γ : Type}

namespace Traced

open Householder.Traced

theorem out_bind (x : Traced β) (f : β → Traced γ) :
    (x >>= f).out = (x.out >>= fun a => (f a).out) := by
  show (Traced.bind x f).out = _
  unfold Traced.bind
  cases x.out <;> rfl

theorem log_bind {x : Traced β} {f : β → Traced γ} {a : β} (h : x.out = .ok a) :
    (x >>= f).log = x.log ++ (f a).log := by
  show (Traced.bind x f).log = _
  unfold Traced.bind
  rw [h]

@[simp] theorem out_pure (a : β) : (pure a : Traced β).out = .ok a := rfl
@[simp] theorem log_pure (a : β) : (pure a : Traced β).log = [] := rfl
@[simp] theorem out_quiet (x : Out β) : (quiet x).out = x := rfl
@[simp] theorem log_quiet (x : Out β) : (quiet x).log = [] := rfl
@[simp] theorem out_step (e : Event) : (step e).out = .ok () := rfl
@[simp] theorem log_step (e : Event) : (step e).log = [e] := rfl

@[simp] theorem out_read (mem : Mem α) (p : Loc) : (Traced.read mem p).out = mem.read p := by
  simp [Traced.read, out_bind]

@[simp] theorem log_read (mem : Mem α) (p : Loc) : (Traced.read mem p).log = [.read p] := by
  unfold Traced.read
  rw [log_bind (a := ()) rfl]; rfl

@[simp] theorem out_write (mem : Mem α) (p : Loc) (v : α) :
    (Traced.write mem p v).out = mem.write p v := by
  simp [Traced.write, out_bind]

@[simp] theorem log_write (mem : Mem α) (p : Loc) (v : α) :
    (Traced.write mem p v).log = [.write p] := by
  unfold Traced.write
  rw [log_bind (a := ()) rfl]; rfl

@[simp] theorem out_add [Add α] (x y : α) : (Traced.add x y).out = .ok (x + y) := rfl
@[simp] theorem log_add [Add α] (x y : α) : (Traced.add x y).log = [.plus] := rfl
@[simp] theorem out_mul [Mul α] (x y : α) : (Traced.mul x y).out = .ok (x * y) := rfl
@[simp] theorem log_mul [Mul α] (x y : α) : (Traced.mul x y).log = [.times] := rfl

theorem out_foldlM {σ : Type} {f : σ → Nat → Traced σ} {g : σ → Nat → Out σ}
    (h : ∀ s i, (f s i).out = g s i) (l : List Nat) (s : σ) :
    (l.foldlM f s).out = l.foldlM g s := by
  induction l generalizing s with
  | nil => rfl
  | cons i l ih =>
    simp only [List.foldlM_cons, out_bind, h]
    congr 1
    funext s'
    exact ih s'

theorem out_forRange {σ : Type} {n : Nat} {body : Nat → σ → Traced σ} {body' : Nat → σ → Out σ}
    (h : ∀ i s, (body i s).out = body' i s) (s : σ) :
    (Traced.forRange n body s).out = Householder.forRange n body' s :=
  out_foldlM (fun s i => h i s) _ s

theorem forRange_zero {σ : Type} (body : Nat → σ → Traced σ) (s : σ) :
    Traced.forRange 0 body s = pure s := rfl

theorem pure_bind' {σ : Type} (s : σ) (f : σ → Traced γ) : (pure s >>= f) = f s := by
  show Traced.bind _ _ = _
  simp [Traced.bind, pure]

theorem bind_assoc' {δ : Type} (x : Traced β) (f : β → Traced γ) (g : γ → Traced δ) :
    (x >>= f) >>= g = x >>= fun a => f a >>= g := by
  show Traced.bind (Traced.bind x f) g = Traced.bind x fun a => Traced.bind (f a) g
  unfold Traced.bind
  cases h : x.out with
  | ok a => cases h' : (f a).out <;> simp [h']
  | panic => simp
  | ub => simp

theorem bind_pure' (x : Traced β) : (x >>= pure) = x := by
  show Traced.bind x pure = x
  unfold Traced.bind
  obtain ⟨o, l⟩ := x
  cases o <;> simp

instance : LawfulMonad Traced := LawfulMonad.mk'
  (id_map := fun x => bind_pure' x)
  (pure_bind := fun s f => pure_bind' s f)
  (bind_assoc := fun x f g => bind_assoc' x f g)

theorem forRange_succ {σ : Type} (n : Nat) (body : Nat → σ → Traced σ) (s : σ) :
    Traced.forRange (n + 1) body s = Traced.forRange n body s >>= body n := by
  simp [Traced.forRange, List.range_succ, List.foldlM_append]

/-- The record of a loop whose iterations are known. -/
theorem forRange_log {σ : Type} {n : Nat} {body : Nat → σ → Traced σ} {s : σ}
    (P : Nat → σ → Prop) (logs : Nat → List Event) (h0 : P 0 s)
    (hs : ∀ i s, i < n → P i s →
      ∃ s', (body i s).out = .ok s' ∧ P (i + 1) s' ∧ (body i s).log = logs i) :
    ∃ s', (Traced.forRange n body s).out = .ok s' ∧ P n s' ∧
      (Traced.forRange n body s).log = (List.range n).flatMap logs := by
  induction n with
  | zero => exact ⟨s, rfl, h0, rfl⟩
  | succ n ih =>
    obtain ⟨s1, e1, p1, l1⟩ := ih fun i s hi hp => hs i s (by omega) hp
    obtain ⟨s2, e2, p2, l2⟩ := hs n s1 (by omega) p1
    refine ⟨s2, ?_, p2, ?_⟩
    · rw [forRange_succ, out_bind, e1]; exact e2
    · rw [forRange_succ, log_bind e1, l1, l2, List.range_succ, List.flatMap_append]; simp

theorem out_container_get (d : Container) (mem : Mem α) (i : Nat) :
    (Traced.container_get_unchecked d mem i).out = d.get_unchecked mem i := by
  unfold Traced.container_get_unchecked Container.get_unchecked
  split <;> simp

theorem out_get_unchecked [Target] [Add α] [Mul α] (cfg : Cfg) (mem : Mem α) (r c : Nat) (m : Mat α) :
    (Traced.get_unchecked cfg mem r c m).out = m.get_unchecked cfg mem r c := by
  induction m with
  | base b =>
    simp [Traced.get_unchecked, Mat.get_unchecked, Traced.base_get_unchecked,
      BaseMatrix.get_unchecked, out_bind, out_container_get]
  | ref m ih => exact ih
  | addition a b l iha ihb => simp [Traced.get_unchecked, Mat.get_unchecked, out_bind, iha, ihb]
  | scalarMult a s ih => simp [Traced.get_unchecked, Mat.get_unchecked, out_bind, ih]

theorem out_get1d_unchecked [Target] [Add α] [Mul α] (cfg : Cfg) (mem : Mem α) (k : Nat) (m : Mat α) :
    (Traced.get1d_unchecked cfg mem k m).out = m.get1d_unchecked cfg mem k := by
  induction m with
  | base b =>
    simp [Traced.get1d_unchecked, Mat.get1d_unchecked, Traced.base_get1d_unchecked,
      BaseMatrix.get1d_unchecked, out_bind, out_container_get]
  | ref m ih => exact ih
  | addition a b l iha ihb => simp [Traced.get1d_unchecked, Mat.get1d_unchecked, out_bind, iha, ihb]
  | scalarMult a s ih => simp [Traced.get1d_unchecked, Mat.get1d_unchecked, out_bind, ih]

theorem out_zeros_from_dim [Target] [Zero α] (cfg : Cfg) (k : BaseKind) (rows cols : Nat)
    (mem : Mem α) :
    (Traced.zeros_from_dim cfg k rows cols mem).out =
      Householder.zeros_from_dim cfg k rows cols mem := by
  simp only [Traced.zeros_from_dim, Householder.zeros_from_dim, Traced.newVector, out_bind, out_quiet,
    out_step, out_pure, Out.bind_ok, Out.bind_assoc']
  rfl

theorem out_get [Target] [Add α] [Mul α] (cfg : Cfg) (m : Mat α) (mem : Mem α) (r c : Nat) :
    (Traced.get cfg m mem r c).out = m.get cfg mem r c := by
  simp [Traced.get, Mat.get, out_bind, out_get_unchecked]

theorem out_get1d [Target] [Add α] [Mul α] (cfg : Cfg) (m : Mat α) (mem : Mem α) (k : Nat) :
    (Traced.get1d cfg m mem k).out = m.get1d cfg mem k := by
  simp [Traced.get1d, Mat.get1d, out_bind, out_get1d_unchecked]

theorem out_for_each [Target] {σ : Type} (cfg : Cfg) (m : BaseMatrix) (f : σ → α → σ × α) (s : σ)
    (mem : Mem α) : (Traced.for_each cfg m f s mem).out = m.for_each cfg f s mem := by
  simp only [Traced.for_each, BaseMatrix.for_each, out_bind, out_quiet]
  congr 1
  funext n
  apply out_forRange
  intro i st
  simp only [out_bind, out_quiet, out_read, out_write, out_pure]
  rfl

theorem out_eval [Target] [Zero α] [Add α] [Mul α] (cfg : Cfg) (m : Mat α) (mem : Mem α) :
    (Traced.eval cfg m mem).out = m.eval cfg mem := by
  simp only [Traced.eval, Mat.eval, out_bind, out_quiet, out_zeros_from_dim, out_pure]
  congr 1
  funext x
  congr 1
  funext n
  have := out_forRange (n := n) (σ := Mem α) (body := fun index mem => do
    let v ← Traced.get1d_unchecked cfg mem index m
    let p ← quiet (x.1.get1d_unchecked_mut cfg index)
    Traced.write mem p v) (body' := fun index mem => do
    let v ← m.get1d_unchecked cfg mem index
    let p ← x.1.get1d_unchecked_mut cfg index
    mem.write p v) (by intro i s; simp only [out_bind, out_get1d_unchecked, out_quiet, out_write]) x.2
  rw [this]
  rfl

end Traced

/-- `Ex.pass` on the values that the operators build. -/
def matPass (r c : Nat) : Mat α → List Event
  | .base b => [.read (cell b r c)]
  | .ref m => matPass r c m
  | .addition a b _ => matPass r c a ++ matPass r c b ++ [.plus]
  | .scalarMult m _ => matPass r c m ++ [.times]

theorem build_pass (e : Ex α) {m : Mat α} (h : e.build = .ok m) (r c : Nat) :
    matPass r c m = e.pass r c := by
  induction e generalizing m with
  | leaf b => obtain rfl : Mat.base b = m := by simpa [Ex.build] using h
              rfl
  | ref a ih =>
    obtain ⟨x, hx, hm⟩ := Out.bind_eq_ok.1 (show (a.build >>= fun x => pure x.from_ref) = .ok m from h)
    obtain rfl : x.from_ref = m := by injection hm
    exact (ih hx : matPass r c x = _)
  | add f g a b iha ihb =>
    obtain ⟨x, hx, h1⟩ := Out.bind_eq_ok.1 h
    obtain ⟨y, hy, h2⟩ := Out.bind_eq_ok.1 h1
    have ia := iha hx
    have ib := ihb hy
    have key : ∀ x' y' : Mat α, matPass r c x' = a.pass r c → matPass r c y' = b.pass r c →
        Mat.addition_new x' y' = .ok m → matPass r c m = a.pass r c ++ b.pass r c ++ [.plus] := by
      intro x' y' e1 e2 e3
      obtain ⟨_, -, e4⟩ := Out.bind_eq_ok.1 e3
      obtain rfl : Mat.addition x' y' x'.layout.index_layout = m := by injection e4
      simp only [matPass, e1, e2]
    cases f <;> cases g
    · exact key x y ia ib h2
    · exact key x y.from_ref ia ib h2
    · exact key x.from_ref y ia ib h2
    · exact key x.from_ref y.from_ref ia ib h2
  | scale f g s a ih =>
    obtain ⟨x, hx, h1⟩ := Out.bind_eq_ok.1 h
    have ia := ih hx
    have key : ∀ x' : Mat α, matPass r c x' = a.pass r c → (Mat.scalarMult x' s) = m →
        matPass r c m = a.pass r c ++ [.times] := by
      rintro x' e1 rfl
      simp only [matPass, e1]
    cases f <;> cases g
    · exact key x ia (by injection h1)
    · exact key x.from_ref ia (by injection h1)
    · exact key x ia (by injection h1)
    · exact key x.from_ref ia (by injection h1)

theorem MatOK.log_unchecked [Target] [Add α] [Mul α] {mem : Mem α} {m : Mat α} (h : MatOK mem m)
    (cfg : Cfg) {r c : Nat} (hs : Stored m.layout r c) :
    (Traced.get_unchecked cfg mem r c m).log = matPass r c m ∧
    (Traced.get1d_unchecked cfg mem (index m.layout r c) m).log = matPass r c m := by
  induction m with
  | base b =>
    have hb : Sound b mem := h
    have hi := hb.inside r c hs
    have h1 : b.layout.convert_2d_raw cfg r c = .ok (raw b.layout r c) :=
      convert_2d_raw_ok cfg hs (hb.raw_lt hs) hb.triFits
    have h2 : b.layout.convert_1d_raw cfg (index b.layout r c) = .ok (raw b.layout r c) := by
      rw [convert_1d_raw_eq cfg (l := b.layout) hs hb.count_lt hb.triFits, h1]
    refine ⟨?_, ?_⟩
    · simp only [Traced.get_unchecked, Traced.base_get_unchecked]
      rw [Traced.log_bind (a := raw b.layout r c) h1]
      simp [Traced.container_get_unchecked, hi, matPass, cell]
    · simp only [Traced.get1d_unchecked, Traced.base_get1d_unchecked, Mat.layout]
      rw [Traced.log_bind (a := raw b.layout r c) h2]
      simp [Traced.container_get_unchecked, hi, matPass, cell]
  | ref m ih => exact ih h hs
  | addition a b l iha ihb =>
    obtain ⟨ha, hb, hd, hk, rfl⟩ := h
    simp only [Mat.layout] at hs ⊢
    rw [index_layout_stored] at hs
    have hs' := (stored_same hk hd r c).1 hs
    obtain ⟨x, -, x2, x3⟩ := ha.unchecked cfg hs
    obtain ⟨y, -, y2, y3⟩ := hb.unchecked cfg hs'
    obtain ⟨la, la'⟩ := iha ha hs
    obtain ⟨lb, lb'⟩ := ihb hb hs'
    refine ⟨?_, ?_⟩
    · simp only [Traced.get_unchecked, matPass]
      rw [Traced.log_bind (a := x) (by rw [Traced.out_get_unchecked, x2]),
        Traced.log_bind (a := y) (by rw [Traced.out_get_unchecked, y2]), la, lb]
      simp
    · rw [index_layout_index]
      simp only [Traced.get1d_unchecked, matPass]
      rw [← index_same hk hd] at y3 lb'
      rw [Traced.log_bind (a := x) (by rw [Traced.out_get1d_unchecked, x3]),
        Traced.log_bind (a := y) (by rw [Traced.out_get1d_unchecked, y3]), la', lb']
      simp
  | scalarMult a s ih =>
    have ha : MatOK mem a := h
    have hs' : Stored a.layout r c := hs
    obtain ⟨x, -, x2, x3⟩ := ha.unchecked cfg hs'
    obtain ⟨la, la'⟩ := ih ha hs'
    refine ⟨?_, ?_⟩
    · simp only [Traced.get_unchecked, matPass]
      rw [Traced.log_bind (a := x) (by rw [Traced.out_get_unchecked, x2]), la]
      simp
    · simp only [Traced.get1d_unchecked, matPass, Mat.layout]
      rw [Traced.log_bind (a := x) (by rw [Traced.out_get1d_unchecked, x3]), la']
      simp

theorem range_flatMap_getD {β γ : Type} (l : List β) (d : β) (f : β → List γ) :
    (List.range l.length).flatMap (fun i => f (l.getD i d)) = l.flatMap f := by
  induction l with
  | nil => rfl
  | cons a l ih =>
    rw [List.length_cons, List.range_succ_eq_map, List.flatMap_cons, List.flatMap_map]
    simp only [List.getD_cons_succ, List.getD_cons_zero, List.flatMap_cons, ih]

theorem range_flatMap_order {γ : Type} (l : Layout) (f : Nat × Nat → List γ) :
    (List.range (count l)).flatMap (fun i => f ((order l).getD i (0, 0))) = (order l).flatMap f := by
  rw [← order_length]; exact range_flatMap_getD _ _ _

theorem order_getD {l : Layout} {r c : Nat} (h : Stored l r c) (d : Nat × Nat) :
    (order l).getD (index l r c) d = (r, c) := by
  rw [List.getD_eq_getElem?_getD, order_index h]; rfl

/-- The record of `zeros_from_dim`: one allocation. -/
theorem log_zeros_from_dim [Target] [Zero α] (cfg : Cfg) {k : BaseKind} {rows cols : Nat} {l : Layout}
    (hk : k.from_dimension (rows, cols) = .ok l) (hl : Contiguous l)
    (hsz : count l * cfg.item.size ≤ isizeMax) (mem : Mem α) :
    (Traced.zeros_from_dim cfg k rows cols mem).log = [.alloc mem.bufs.length (count l)] := by
  obtain ⟨e, h2⟩ := zeros_from_dim_ok cfg hk hl hsz mem
  have hn : l.number_of_elements cfg = .ok (count l) := h2.sound.number_of_elements cfg
  have hv : Container.newVector cfg mem (count l) =
      .ok (⟨mem.bufs.length, 0, count l⟩, (mem.alloc (List.replicate (count l) 0)).2) := by
    simp [Container.newVector, hsz, Mem.alloc]
  have hv' : (Traced.newVector cfg mem (count l)).out =
      .ok (⟨mem.bufs.length, 0, count l⟩, (mem.alloc (List.replicate (count l) 0)).2) := by
    simp only [Traced.newVector, Traced.out_bind, Traced.out_quiet, hv, Out.bind_ok, Traced.out_step,
      Traced.out_pure]
  have hlog : (Traced.newVector cfg mem (count l)).log = [.alloc mem.bufs.length (count l)] := by
    unfold Traced.newVector
    rw [Traced.log_bind (a := (⟨mem.bufs.length, 0, count l⟩,
        (mem.alloc (List.replicate (count l) 0)).2)) hv,
      Traced.log_bind (a := ()) rfl]
    simp
  have hf : from_data cfg .dynamic .dynamic ⟨mem.bufs.length, 0, count l⟩ l =
      .ok ⟨⟨mem.bufs.length, 0, count l⟩, l, .dynamic, .dynamic⟩ := by
    simp [from_data, BaseMatrix.new, hn, Out.assert, Container.number_of_elements]
  unfold Traced.zeros_from_dim
  rw [Traced.log_bind (a := l) hk, Traced.log_bind (a := count l) hn, Traced.log_bind hv',
    Traced.log_bind (a := l) hk, Traced.log_bind hf, hlog]
  simp

/-- The record of `eval`. -/
theorem MatOK.log_eval [Target] [Zero α] [Add α] [Mul α] {mem : Mem α} {m : Mat α} (h : MatOK mem m)
    (cfg : Cfg) (hk : m.layout.indexKind = .columnVector → m.layout.dim.1 = 1)
    (hsz : count m.layout * cfg.item.size ≤ isizeMax) {R : BaseMatrix} {mem' : Mem α}
    (he : m.eval cfg mem = .ok (R, mem')) :
    (Traced.eval cfg m mem).log = .alloc R.data.buf (count m.layout) ::
      (order m.layout).flatMap fun p => matPass p.1 p.2 m ++ [.write (cell R p.1 p.2)] := by
  have hc := index_layout_contiguous m.layout
  have hsz' : count m.layout.index_layout * cfg.item.size ≤ isizeMax := by
    rw [index_layout_count]; exact hsz
  obtain ⟨h1, h2⟩ := zeros_from_dim_ok cfg (k := m.layout.indexKind) (rows := m.layout.dim.1)
    (cols := m.layout.dim.2) (l := m.layout.index_layout) (from_dimension_kind hk) hc hsz' mem
  have hlog := log_zeros_from_dim cfg (k := m.layout.indexKind) (rows := m.layout.dim.1)
    (cols := m.layout.dim.2) (l := m.layout.index_layout) (from_dimension_kind hk) hc hsz' mem
  generalize hR : (⟨⟨mem.bufs.length, 0, count m.layout.index_layout⟩, m.layout.index_layout,
    .dynamic, .dynamic⟩ : BaseMatrix) = R0 at h1 h2
  have hRl : R0.layout = m.layout.index_layout := by rw [← hR]
  have hRb : R0.data.buf = mem.bufs.length := by rw [← hR]
  generalize (mem.alloc _).2 = mem0 at h1 h2
  have hn := h.number_of_elements cfg
  have hloop := Traced.forRange_log (n := count m.layout) (s := mem0)
    (body := fun index mem => do
      let v ← Traced.get1d_unchecked cfg mem index m
      let p ← Traced.quiet (R0.get1d_unchecked_mut cfg index)
      Traced.write mem p v)
    (fun _ mem1 => ∀ b, mem0.size b = mem1.size b)
    (fun i => (fun p : Nat × Nat => matPass p.1 p.2 m ++ [.write (cell R0 p.1 p.2)])
      ((order m.layout).getD i (0, 0))) (fun _ => rfl) ?_
  · obtain ⟨mem1, e1, -, l1⟩ := hloop
    obtain rfl : R0 = R := by
      have := Traced.out_eval cfg m mem
      rw [he] at this
      simp only [Traced.eval, Traced.out_bind, Traced.out_zeros_from_dim, h1, Out.bind_ok,
        Traced.out_quiet, hn, e1, Traced.out_pure] at this
      injection this with this
      exact congrArg Prod.fst this
    unfold Traced.eval
    rw [Traced.log_bind (a := (R0, mem0)) (by rw [Traced.out_zeros_from_dim, h1]), hlog,
      Traced.log_bind (a := count m.layout) hn, Traced.log_bind (a := mem1) e1,
      l1.trans (range_flatMap_order m.layout
        (fun p => matPass p.1 p.2 m ++ [Event.write (cell R0 p.1 p.2)]))]
    simp [hRb, index_layout_count]
  · intro i mem1 hi hP
    obtain ⟨r, c, hs, rfl⟩ := exists_index hi
    have hle : ∀ b, mem.size b ≤ mem1.size b := fun b => by
      rw [← hP b]; exact h2.ext.size_le b
    have hok1 : MatOK mem1 m := h.mono hle
    obtain ⟨v, -, -, v3⟩ := hok1.unchecked cfg hs
    have hsR : Stored R0.layout r c := by rw [hRl, index_layout_stored]; exact hs
    have hiR : index R0.layout r c = index m.layout r c := by rw [hRl, index_layout_index]
    have hR1 : Sound R0 mem1 := h2.sound.mono (by rw [hP])
    obtain ⟨mem2, hw, hu⟩ := Mem.write_upd (v := v) (hR1.cell_lt hsR)
    have hp := hR1.get1d_unchecked_mut cfg hsR
    rw [hiR] at hp
    have hg : (Traced.get1d_unchecked cfg mem1 (index m.layout r c) m).out = .ok v := by
      rw [Traced.out_get1d_unchecked, v3]
    refine ⟨mem2, ?_, fun b => by rw [hP b, hu.size], ?_⟩
    · simp only [Traced.out_bind, hg, Out.bind_ok, Traced.out_quiet, hp, Traced.out_write, hw]
    · rw [Traced.log_bind hg, Traced.log_bind (a := cell R0 r c) (by simpa using hp),
        (hok1.log_unchecked cfg hs).2]
      simp only [order_getD hs, Traced.log_quiet, Traced.log_write, List.nil_append]

/-- The record of `for_each`. -/
theorem Sound.log_for_each [Target] {σ : Type} {m : BaseMatrix} {mem : Mem α} (h : Sound m mem)
    (cfg : Cfg) (f : σ → α → σ × α) (s : σ) :
    (Traced.for_each cfg m f s mem).log =
      (order m.layout).flatMap fun p => [.read (cell m p.1 p.2), .write (cell m p.1 p.2)] := by
  have hn := h.number_of_elements cfg
  unfold Traced.for_each
  rw [Traced.log_bind (a := count m.layout) hn]
  obtain ⟨st, -, -, l1⟩ := Traced.forRange_log (n := count m.layout) (s := (s, mem))
    (body := fun index st => do
      let p ← Traced.quiet (m.get1d_unchecked_mut cfg index)
      let v ← Traced.read st.2 p
      let r := f st.1 v
      let mem' ← Traced.write st.2 p r.2
      return (r.1, mem'))
    (fun _ st => ∀ b, mem.size b = st.2.size b)
    (fun i => (fun p : Nat × Nat => [.read (cell m p.1 p.2), .write (cell m p.1 p.2)])
      ((order m.layout).getD i (0, 0))) (fun _ => rfl) (by
    intro i st hi hP
    obtain ⟨r, c, hs, rfl⟩ := exists_index hi
    have h1 : Sound m st.2 := h.mono (by rw [hP])
    have hp := h1.get1d_unchecked_mut cfg hs
    obtain ⟨v, hv, -⟩ := Mem.read_ok (h1.cell_lt hs)
    obtain ⟨mem2, hw, hu⟩ := Mem.write_upd (v := (f st.1 v).2) (h1.cell_lt hs)
    refine ⟨((f st.1 v).1, mem2), ?_, fun b => by rw [hP b, hu.size], ?_⟩
    · simp only [Traced.out_bind, Traced.out_quiet, hp, Out.bind_ok, Traced.out_read, hv,
        Traced.out_write, hw, Traced.out_pure]
    · rw [Traced.log_bind (a := cell m r c) (by simpa using hp),
        Traced.log_bind (a := v) (by simpa using hv),
        Traced.log_bind (a := mem2) (by simpa using hw)]
      simp only [order_getD hs, Traced.log_quiet, Traced.log_read, Traced.log_write, Traced.log_pure,
        List.nil_append, List.append_nil, List.cons_append])
  rw [l1.trans (range_flatMap_order m.layout
    (fun p => [Event.read (cell m p.1 p.2), Event.write (cell m p.1 p.2)]))]
  simp

end Householder.Spec
