import Verif.Spec.TraitsExact
import Verif.Lemmas.Culprit

/-!
# Lemmas for the exact conditions on implementations of the open traits
-/

namespace Householder.Spec

open Props

variable {α β V D X : Type}

theorem faulty_nil : ¬ Faulty ([] : List (Out β)) := by
  rintro ⟨pre, post, h, -⟩
  simp at h

theorem faulty_cons {x : Out β} {xs : List (Out β)} :
    Faulty (x :: xs) ↔ x = .ub ∨ (∃ v, x = .ok v) ∧ Faulty xs := by
  constructor
  · rintro ⟨pre, post, h, h1⟩
    cases pre with
    | nil => exact .inl (List.cons.inj h).1
    | cons z pre =>
      obtain ⟨rfl, h'⟩ := List.cons.inj h
      exact .inr ⟨h1 _ (by simp), pre, post, h', fun w hw => h1 w (by simp [hw])⟩
  · rintro (rfl | ⟨h, pre, post, rfl, h1⟩)
    · exact ⟨[], xs, rfl, by simp⟩
    · refine ⟨x :: pre, post, rfl, fun y hy => ?_⟩
      rcases List.mem_cons.1 hy with rfl | hy
      · exact h
      · exact h1 y hy

theorem faulty_append {xs ys : List (Out β)} :
    Faulty (xs ++ ys) ↔ Faulty xs ∨ (∀ x ∈ xs, ∃ v, x = .ok v) ∧ Faulty ys := by
  induction xs with
  | nil => simp [faulty_nil]
  | cons x xs ih =>
    rw [List.cons_append, faulty_cons, ih, faulty_cons]
    simp only [List.mem_cons, forall_eq_or_imp]
    tauto

/-- A computation that needs exactly these answers. -/
structure Needs {γ : Type} (o : Out γ) (xs : List (Out β)) : Prop where
  ub : o = .ub ↔ Faulty xs
  ok : (∃ v, o = .ok v) ↔ ∀ x ∈ xs, ∃ v, x = .ok v

theorem Needs.one (o : Out β) : Needs o [o] :=
  ⟨by simp [faulty_cons, faulty_nil], by simp⟩

theorem Needs.bind {γ δ : Type} {o : Out γ} {f : γ → Out δ} {xs ys : List (Out β)} (h : Needs o xs)
    (hf : ∀ v, o = .ok v → Needs (f v) ys) : Needs (o >>= f) (xs ++ ys) := by
  constructor
  · rw [Out.bind_eq_ub, faulty_append, h.ub, ← h.ok]
    refine or_congr_right ⟨?_, ?_⟩
    · rintro ⟨v, h1, h2⟩
      exact ⟨⟨v, h1⟩, (hf v h1).ub.1 h2⟩
    · rintro ⟨⟨v, h1⟩, h2⟩
      exact ⟨v, h1, (hf v h1).ub.2 h2⟩
  · simp only [Out.bind_eq_ok, List.mem_append]
    constructor
    · rintro ⟨w, v, h1, h2⟩ x (hx | hx)
      · exact h.ok.1 ⟨v, h1⟩ x hx
      · exact (hf v h1).ok.1 ⟨w, h2⟩ x hx
    · intro hx
      obtain ⟨v, hv⟩ := h.ok.2 fun x h => hx x (.inl h)
      obtain ⟨w, hw⟩ := (hf v hv).ok.2 fun x h => hx x (.inr h)
      exact ⟨w, v, hv, hw⟩

theorem Needs.then_ok {γ δ : Type} {o : Out γ} {f : γ → Out δ} {xs : List (Out β)} (h : Needs o xs)
    (hf : ∀ v, ∃ w, f v = .ok w) : Needs (o >>= f) xs := by
  have := h.bind (f := f) (ys := []) fun v _ => by
    obtain ⟨w, hw⟩ := hf v
    rw [hw]; exact ⟨by simp [faulty_nil], by simp⟩
  simpa using this

theorem needs2d [Add α] [Mul α] (I : Impls α V D X) (mem : Mem α) (r c : Nat)
    (m : AnyMat α V D X) :
    Needs (m.get_unchecked I mem r c) ((sources m).map (ask2d I mem r c)) := by
  induction m with
  | base b =>
    have : AnyMat.get_unchecked I mem r c (.base b) = ask2d I mem r c (.inl b) := by
      simp only [AnyMat.get_unchecked, AnyBase.get_unchecked, ask2d]
      cases I.lay.convert_2d_raw b.layout r c <;> rfl
    rw [this]; exact .one _
  | user x => exact .one _
  | ref m ih => exact ih
  | addition m1 m2 l ih1 ih2 =>
    simp only [sources, List.map_append]
    exact ih1.bind fun v _ => ih2.then_ok fun w => ⟨_, rfl⟩
  | scalarMult m s ih => exact ih.then_ok fun w => ⟨_, rfl⟩

theorem needs1d [Add α] [Mul α] (I : Impls α V D X) (mem : Mem α) (i : Nat)
    (m : AnyMat α V D X) :
    Needs (m.get1d_unchecked I mem i) ((sources m).map (ask1d I mem i)) := by
  induction m with
  | base b =>
    have : AnyMat.get1d_unchecked I mem i (.base b) = ask1d I mem i (.inl b) := by
      simp only [AnyMat.get1d_unchecked, AnyBase.get1d_unchecked, ask1d]
      cases I.lay.convert_1d_raw b.layout i <;> rfl
    rw [this]; exact .one _
  | user x => exact .one _
  | ref m ih => exact ih
  | addition m1 m2 l ih1 ih2 =>
    simp only [sources, List.map_append]
    exact ih1.bind fun v _ => ih2.then_ok fun w => ⟨_, rfl⟩
  | scalarMult m s ih => exact ih.then_ok fun w => ⟨_, rfl⟩

/-- The container is in memory. -/
def Backed (d : Container) (mem : Mem α) : Prop := d.off + d.len ≤ mem.size d.buf

theorem tracks_cell {d : Container} {place : Out Nat} {g : Nat → Out β}
    (hp : place ≠ .ub) (h1 : ∀ k, k < d.len → ∃ v, g k = .ok v)
    (h2 : ∀ k, ¬ k < d.len → g k = .ub) : Tracks (place >>= g) [oneCell d place] :=
  tracks_element (b := ⟨d, .rowMajor ⟨(0, 0)⟩, .dynamic, .dynamic⟩) hp h1 h2

theorem get_unchecked_backed {d : Container} {mem : Mem α} (h : Backed d mem) {k : Nat}
    (hk : k < d.len) : ∃ v, d.get_unchecked mem k = .ok v :=
  get_unchecked_in (b := ⟨d, .rowMajor ⟨(0, 0)⟩, .dynamic, .dynamic⟩) h hk

theorem origins_base (b : AnyBase V Container) : origins (.base b : AnyMat α V Container Empty) = [b] :=
  rfl

theorem origins_addition (a b : AnyMat α V Container Empty) (l : V) :
    origins (.addition a b l) = origins a ++ origins b := by
  simp [origins, sources]

variable {L : LayoutImpl V}

theorem tracks_reach2d [Add α] [Mul α] (hL : SafeLayout L) {mem : Mem α} {r c : Nat}
    (m : AnyMat α V Container Empty) (h : ∀ b ∈ origins m, Backed b.data mem) :
    Tracks (m.get_unchecked (overCrate L α) mem r c) (reach2d L m r c) := by
  induction m with
  | base b =>
    refine tracks_cell (hL.convert_2d_raw _ _ _)
      (fun k hk => get_unchecked_backed (h b (by simp [origins_base])) hk) fun k hk => ?_
    simp [crateContainers, Container.get_unchecked, hk]
  | user x => exact x.elim
  | ref m ih => exact ih h
  | addition m1 m2 l ih1 ih2 =>
    simp only [origins_addition, List.mem_append] at h
    simp only [reach2d, origins_addition, List.map_append]
    exact (ih1 fun b hb => h b (.inl hb)).bind fun v _ =>
      (ih2 fun b hb => h b (.inr hb)).then_ok fun w _ => ⟨_, rfl⟩
  | scalarMult m s ih => exact (ih h).then_ok fun w _ => ⟨_, rfl⟩

theorem tracks_reach1d [Add α] [Mul α] (hL : SafeLayout L) {mem : Mem α} {i : Nat}
    (m : AnyMat α V Container Empty) (h : ∀ b ∈ origins m, Backed b.data mem) :
    Tracks (m.get1d_unchecked (overCrate L α) mem i) (reach1d L m i) := by
  induction m with
  | base b =>
    refine tracks_cell (hL.convert_1d_raw _ _)
      (fun k hk => get_unchecked_backed (h b (by simp [origins_base])) hk) fun k hk => ?_
    simp [crateContainers, Container.get_unchecked, hk]
  | user x => exact x.elim
  | ref m ih => exact ih h
  | addition m1 m2 l ih1 ih2 =>
    simp only [origins_addition, List.mem_append] at h
    simp only [reach1d, origins_addition, List.map_append]
    exact (ih1 fun b hb => h b (.inl hb)).bind fun v _ =>
      (ih2 fun b hb => h b (.inr hb)).then_ok fun w _ => ⟨_, rfl⟩
  | scalarMult m s ih => exact (ih h).then_ok fun w _ => ⟨_, rfl⟩

theorem tracks_place2d (hL : SafeLayout L) (b : AnyBase V Container) (r c : Nat) :
    Tracks (b.get_unchecked_mut (overCrate L α) r c) (reach2d L (.base b : AnyMat α V Container Empty) r c) :=
  tracks_cell (hL.convert_2d_raw _ _ _)
    (fun k hk => ⟨_, by simp [crateContainers, Container.get_unchecked_mut, hk]; rfl⟩)
    fun k hk => by simp [crateContainers, Container.get_unchecked_mut, hk]

theorem tracks_place1d (hL : SafeLayout L) (b : AnyBase V Container) (i : Nat) :
    Tracks (b.get1d_unchecked_mut (overCrate L α) i) (reach1d L (.base b : AnyMat α V Container Empty) i) :=
  tracks_cell (hL.convert_1d_raw _ _)
    (fun k hk => ⟨_, by simp [crateContainers, Container.get_unchecked_mut, hk]; rfl⟩)
    fun k hk => by simp [crateContainers, Container.get_unchecked_mut, hk]

theorem place_holds {b : AnyBase V Container} {i : Nat} {p : Loc}
    (h : b.get1d_unchecked_mut (overCrate L α) i = .ok p) : Props.Holds b.data p := by
  obtain ⟨k, -, hk⟩ := Out.bind_eq_ok.1 h
  simp only [crateContainers, Container.get_unchecked_mut] at hk
  split at hk
  · cases hk; exact ⟨rfl, by simp, by simp; omega⟩
  · cases hk

/-- Checked against a dimension. -/
theorem ub_dimension {o : Out (Nat × Nat)} {x : Out β} {r c : Nat} {P : Prop} (h : x = .ub ↔ P) :
    (o >>= fun d => assert_dimension r c d >>= fun _ => x) = .ub ↔
      o = .ub ∨ ∃ d, o = .ok d ∧ r < d.1 ∧ c < d.2 ∧ P := by
  rw [Out.bind_eq_ub]
  refine or_congr_right (exists_congr fun d => and_congr_right fun _ => ?_)
  unfold assert_dimension
  by_cases h1 : r < d.1
  · by_cases h2 : c < d.2
    · rw [Out.assert_pos h1, Out.bind_ok, Out.assert_pos h2, Out.bind_ok, h]
      simp [h1, h2]
    · rw [Out.assert_pos h1, Out.bind_ok, Out.assert_neg h2]
      simp [h2]
  · rw [Out.assert_neg h1]
    simp [h1]

/-- Checked against a number of elements. -/
theorem ub_number {o : Out Nat} {x : Out β} {i : Nat} {P : Prop} (h : x = .ub ↔ P) :
    (o >>= fun n => assert_dimension1d i n >>= fun _ => x) = .ub ↔
      o = .ub ∨ ∃ n, o = .ok n ∧ i < n ∧ P := by
  rw [Out.bind_eq_ub]
  refine or_congr_right (exists_congr fun n => and_congr_right fun _ => ?_)
  unfold assert_dimension1d
  by_cases h1 : i < n
  · rw [Out.assert_pos h1, Out.bind_ok, h]
    simp [h1]
  · rw [Out.assert_neg h1]
    simp [h1]

/-- One cell. -/
theorem leaves_cell {d : Container} {place : Out Nat} :
    LeavesContainer [oneCell d place] ↔ ∃ k, place = .ok k ∧ d.len ≤ k := by
  rw [leaves_cons]
  simp only [leaves_nil, and_false, or_false, Access.beyond, oneCell]
  cases place with
  | ok k =>
    simp only [Out.toInt, Out.ok.injEq, exists_eq_left']
    omega
  | panic => simp [Out.toInt]
  | ub => simp [Out.toInt]

theorem Backed.append {d : Container} {mem : Mem α} (h : Backed d mem) (ys : List α) :
    Backed d ⟨mem.bufs ++ [ys]⟩ :=
  InMem.append (b := ⟨d, .rowMajor ⟨(0, 0)⟩, .dynamic, .dynamic⟩) h ys

theorem Backed.size {d : Container} {mem mem' : Mem α} (h : Backed d mem)
    (hs : mem'.size d.buf = mem.size d.buf) : Backed d mem' := by
  unfold Backed at *; omega

theorem Backed.holds {d : Container} {mem : Mem α} (h : Backed d mem) {p : Loc}
    (hp : Props.Holds d p) : p.idx < mem.size p.buf :=
  InMem.holds (b := ⟨d, .rowMajor ⟨(0, 0)⟩, .dynamic, .dynamic⟩) h hp

theorem ubIf_any_for_each {σ : Type} (hL : SafeLayout L) {b : AnyBase V Container} {mem : Mem α}
    (h : Backed b.data mem) (f : σ → α → σ × α) (s : σ) :
    UbIf (b.for_each (overCrate L α) f s mem) (whenOk (L.number_of_elements b.layout) fun n =>
      (List.range n).flatMap (reach1d L (.base b : AnyMat α V Container Empty))) := by
  refine .whenOk (hL.number_of_elements _) fun n _ => ?_
  refine (Tracks.forRange (fun st : σ × Mem α => Backed b.data st.2) (fun i st hst => ?_)
    (fun i st st' hst hb => ?_) h n).1.ub
  · refine (tracks_place1d hL b i).then_ok fun p hp => ?_
    have hp' := place_holds hp
    obtain ⟨v, hv⟩ := read_in (hst.holds hp')
    obtain ⟨m, hm⟩ := write_in (mem := st.2) (f st.1 v).2 (hst.holds hp')
    exact ⟨((f st.1 v).1, m), by simp only [hv, Out.bind_ok, hm]; rfl⟩
  · simp only [Out.bind_eq_ok, Out.pure_eq] at hb
    obtain ⟨p, hp, v, hv, m, hm, hb⟩ := hb
    cases hb
    exact hst.size ((Only.write (place_holds hp) hm).size _)

theorem ubIf_any_eval [Target] [Zero α] [Add α] [Mul α] (hL : SafeLayout L) (cfg : Cfg)
    {m : AnyMat α V Container Empty} {mem : Mem α} (h : ∀ b ∈ origins m, Backed b.data mem) :
    UbIf (m.eval (overCrate L α) cfg mem) (evalReach L cfg m (m.layout (overCrate L α)) mem) := by
  unfold AnyMat.eval evalReach
  generalize m.layout (overCrate L α) = l
  refine .whenOk (hL.dim _) fun d _ => .whenOk (hL.from_dimension _ _) fun l' hl' =>
    .whenOk (hL.number_of_elements _) fun n hn => ?_
  by_cases hroom : n * cfg.item.size ≤ isizeMax
  · have hnew : Container.newVector cfg mem n =
        .ok (⟨mem.bufs.length, 0, n⟩, ⟨mem.bufs ++ [List.replicate n 0]⟩) := by
      simp [Container.newVector, hroom, Mem.alloc]
    have hl2 : L.from_dimension l d = .ok l' := hl'
    have hn2 : L.number_of_elements l' = .ok n := hn
    rw [if_pos hroom, hnew]
    simp only [Out.bind_ok, hl2, hn2]
    rw [Out.assert_pos (show n ≤ (⟨mem.bufs.length, 0, n⟩ : Container).number_of_elements from
      le_refl n), Out.bind_ok]
    refine .whenOk (hL.number_of_elements _) fun k _ => ?_
    refine UbIf.done (f := fun mem1 => .ok (_, mem1)) ?_ (by simp)
    have hnb : Backed ⟨mem.bufs.length, 0, n⟩ (⟨mem.bufs ++ [List.replicate n 0]⟩ : Mem α) := by
      unfold Backed
      simp [Mem.size]
    let R : AnyBase V Container := ⟨⟨mem.bufs.length, 0, n⟩, l'⟩
    refine (Tracks.forRange (fun st : Mem α => Backed R.data st ∧ ∀ b ∈ origins m, Backed b.data st)
      (fun i st hst => ?_) (fun i st st' hst hb => ?_) ⟨hnb, fun b hb => (h b hb).append _⟩ k).1.ub
    · refine (tracks_reach1d hL m hst.2).bind fun v _ => ?_
      have t := (tracks_place1d (α := α) hL R i).then_ok (f := fun p => st.write p v) fun p hp => by
        obtain ⟨m', hm'⟩ := write_in v (hst.1.holds (place_holds hp))
        exact ⟨m', hm'⟩
      simp only [AnyBase.get1d_unchecked_mut, Out.bind_assoc'] at t
      exact t
    · simp only [Out.bind_eq_ok] at hb
      obtain ⟨v, -, j, hj, p, hp, hw⟩ := hb
      have hq : R.get1d_unchecked_mut (overCrate L α) i = .ok p := by
        simp only [AnyBase.get1d_unchecked_mut, R, hj, Out.bind_ok]
        exact hp
      have ho := Only.write (place_holds hq) hw
      exact ⟨hst.1.size (ho.size _), fun b hb => (hst.2 b hb).size (ho.size _)⟩
  · have hnew : Container.newVector cfg mem n = .panic := by
      simp [Container.newVector, hroom]
    rw [if_neg hroom, hnew]
    exact .panic

end Householder.Spec
