import Verif.Spec.Writer
/-!
Property C49: the builder.
-/
namespace Npyz.Props
open Npyz Npyz.Spec

theorem getLast?_append_some {α : Type} (l : List α) (a : Option α) :
    (l ++ a.toList).getLast? = a.or l.getLast? := by
  cases a <;> simp

theorem lastArg_concat {W α : Type} (f : Builder.Call W → Option α) (cs : List (Builder.Call W)) (c : Builder.Call W) :
    lastArg f (cs ++ [c]) = (f c).or (lastArg f cs) := by
  unfold lastArg
  rw [List.filterMap_append]
  have : [c].filterMap f = (f c).toList := by cases h : f c <;> simp [h]
  rw [this, getLast?_append_some]

theorem getDType_setOrder {W : Type} (o : Order) (b : Builder W) : (b.setOrder o).getDType = b.getDType := by
  induction b with
  | options => rfl
  | withWriter w b ih => exact ih
  | withDType d b ih => rfl
  | withShape s b ih => exact ih

theorem getShape_setOrder {W : Type} (o : Order) (b : Builder W) : (b.setOrder o).getShape = b.getShape := by
  induction b with
  | options => rfl
  | withWriter w b ih => exact ih
  | withDType d b ih => exact ih
  | withShape s b ih => rfl

theorem getWriter_setOrder {W : Type} (o : Order) (b : Builder W) : (b.setOrder o).getWriter = b.getWriter := by
  induction b with
  | options => rfl
  | withWriter w b ih => rfl
  | withDType d b ih => exact ih
  | withShape s b ih => exact ih

theorem getOrder_setOrder {W : Type} (o : Order) (b : Builder W) : (b.setOrder o).getOrder = o := by
  induction b with
  | options => rfl
  | withWriter w b ih => exact ih
  | withDType d b ih => exact ih
  | withShape s b ih => exact ih

/-- What the builder remembers: for each kind of call the last argument. -/
theorem builder_getters {W : Type} (cs : List (Builder.Call W)) :
    (Builder.calls cs).getDType = lastArg dtypeArg cs ∧ (Builder.calls cs).getShape = lastArg shapeArg cs ∧
    (Builder.calls cs).getOrder = lastOrder cs ∧ (Builder.calls cs).getWriter = lastArg writerArg cs := by
  obtain ⟨rcs, rfl⟩ : ∃ rcs, cs = rcs.reverse := ⟨cs.reverse, by simp⟩
  induction rcs with
  | nil => exact ⟨rfl, rfl, rfl, rfl⟩
  | cons c rcs ih =>
    obtain ⟨h1, h2, h3, h4⟩ := ih
    have hcall : Builder.calls (c :: rcs).reverse = (Builder.calls rcs.reverse).call c := by
      unfold Builder.calls
      rw [List.reverse_cons, List.foldl_append]; rfl
    rw [hcall]
    unfold lastOrder at h3 ⊢
    rw [List.reverse_cons]
    simp only [lastArg_concat]
    cases c with
    | dtype d => exact ⟨rfl, h2, h3, h4⟩
    | shape s => exact ⟨h1, rfl, h3, h4⟩
    | order o =>
      exact ⟨(getDType_setOrder o _).trans h1, (getShape_setOrder o _).trans h2, getOrder_setOrder o _, (getWriter_setOrder o _).trans h4⟩
    | writer w => exact ⟨h1, h2, h3, rfl⟩

/-- C49: of repeated calls the last wins, and nothing else matters: each way of starting a file does the
same as starting it with the last dtype, shape, order (row-major if none was given) and writer. -/
theorem C49_last_wins {W : Type} (M : Machine) (t : Ty) (cs : List (Builder.Call W)) :
    ((Builder.calls cs).beginNd M t = do
      let d ← lastArg dtypeArg cs
      let shape ← lastArg shapeArg cs
      let w ← lastArg writerArg cs
      some (w, NpyWriter.begin M t d (lastOrder cs) (.nd shape))) ∧
    ((Builder.calls cs).begin1d M t = do
      let d ← lastArg dtypeArg cs
      let w ← lastArg writerArg cs
      some (w, NpyWriter.begin M t d (lastOrder cs) .oneD)) ∧
    (∀ r, (Builder.calls cs).begin2d M t r = do
      let d ← lastArg dtypeArg cs
      let w ← lastArg writerArg cs
      some (w, NpyWriter.begin M t d (lastOrder cs) (.twoD r))) ∧
    ((Builder.calls cs).writeHeaderOnly M = do
      let d ← lastArg dtypeArg cs
      let shape ← lastArg shapeArg cs
      let w ← lastArg writerArg cs
      some (w, writeHeader M d (lastOrder cs) (.nd shape))) := by
  obtain ⟨h1, h2, h3, h4⟩ := builder_getters cs
  refine ⟨?_, ?_, fun r => ?_, ?_⟩
  · unfold Builder.beginNd; rw [h1, h2, h3, h4]
  · unfold Builder.begin1d; rw [h1, h3, h4]
  · unfold Builder.begin2d; rw [h1, h3, h4]
  · unfold Builder.writeHeaderOnly; rw [h1, h2, h3, h4]

/-- The four ways of starting a file agree. -/
def SameStart {W : Type} (M : Machine) (t : Ty) (b b' : Builder W) : Prop :=
  b.beginNd M t = b'.beginNd M t ∧ b.begin1d M t = b'.begin1d M t ∧ (∀ r, b.begin2d M t r = b'.begin2d M t r) ∧
    b.writeHeaderOnly M = b'.writeHeaderOnly M

theorem sameStart_of_last {W : Type} {M : Machine} {t : Ty} {cs cs' : List (Builder.Call W)}
    (h1 : lastArg dtypeArg cs = lastArg dtypeArg cs') (h2 : lastArg shapeArg cs = lastArg shapeArg cs')
    (h3 : lastArg orderArg cs = lastArg orderArg cs') (h4 : lastArg writerArg cs = lastArg writerArg cs') :
    SameStart M t (Builder.calls cs) (Builder.calls cs') := by
  obtain ⟨a1, a2, a3, a4⟩ := C49_last_wins M t cs
  obtain ⟨b1, b2, b3, b4⟩ := C49_last_wins M t cs'
  have h3 : lastOrder cs = lastOrder cs' := by unfold lastOrder; rw [h3]
  refine ⟨?_, ?_, fun r => ?_, ?_⟩
  · rw [a1, b1, h1, h2, h3, h4]
  · rw [a2, b2, h1, h3, h4]
  · rw [a3, b3, h1, h3, h4]
  · rw [a4, b4, h1, h2, h3, h4]

/-- C49: calls of different kinds can be swapped anywhere in a chain. -/
theorem C49_swap {W : Type} (M : Machine) (t : Ty) (xs ys : List (Builder.Call W)) {a b : Builder.Call W} (h : Different a b) :
    SameStart M t (Builder.calls (xs ++ a :: b :: ys)) (Builder.calls (xs ++ b :: a :: ys)) := by
  have key : ∀ {α : Type} (f : Builder.Call W → Option α), ((f a).isSome && (f b).isSome) = false →
      lastArg f (xs ++ a :: b :: ys) = lastArg f (xs ++ b :: a :: ys) := by
    intro α f hf
    unfold lastArg
    congr 1
    simp only [List.filterMap_append, List.filterMap_cons]
    cases ha : f a <;> cases hb : f b <;> simp_all
  exact sameStart_of_last (key _ h.1) (key _ h.2.1) (key _ h.2.2.1) (key _ h.2.2.2)

/-- C49: if no kind of call is repeated, the calls can be made in any order. -/
theorem C49_permute {W : Type} (M : Machine) (t : Ty) {cs cs' : List (Builder.Call W)} (h : cs.Perm cs') (ho : OnceEach cs) :
    SameStart M t (Builder.calls cs) (Builder.calls cs') := by
  have key : ∀ {α : Type} (f : Builder.Call W → Option α), (cs.filterMap f).length ≤ 1 → lastArg f cs = lastArg f cs' := by
    intro α f hf
    have hp := h.filterMap f
    unfold lastArg
    congr 1
    match hx : cs.filterMap f, hf with
    | [], _ => rw [hx] at hp; exact hp.nil_eq
    | [a], _ => rw [hx] at hp; exact (List.perm_singleton.mp hp.symm).symm
  exact sameStart_of_last (key _ ho.1) (key _ ho.2.1) (key _ ho.2.2.1) (key _ ho.2.2.2)

/-- C49_permute, C49_swap: a full chain, in two orders, and two calls of different kinds. -/
example (d : DType) (w : Nat) : [Builder.Call.order .fortran, .dtype d, .shape [2, 3], .writer w].Perm
    [.writer w, .shape [2, 3], .dtype d, .order .fortran] ∧ OnceEach [Builder.Call.order .fortran, .dtype d, .shape [2, 3], .writer w] ∧
    Different (Builder.Call.dtype (W := Nat) d) (.shape [2]) :=
  ⟨(List.reverse_perm [Builder.Call.writer w, .shape [2, 3], .dtype d, .order .fortran]),
    ⟨Nat.le_refl _, Nat.le_refl _, Nat.le_refl _, Nat.le_refl _⟩, rfl, rfl, rfl, rfl⟩

end Npyz.Props
