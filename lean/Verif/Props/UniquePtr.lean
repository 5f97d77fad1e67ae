import Verif.Lemmas.UniquePtr
/-
C60: `std::unique_ptr` to an interface.
-/
namespace AnyAny.UPtr
open AnyAny.Poly
open AnyAny.Mem (Method)

variable {w : UW} {S : SS}

/-- **C60**: every operation of a well-typed program completes: no null or dangling pointer is passed to a deleter, nothing is deleted
as another type than its own, no assertion fails. -/
theorem C60_step (h : Reach w S) {op : Op} (L : Legal S op) : ∃ w', exec op w = some w' := by
  obtain ⟨w', h1, _⟩ := UPtr.step h.inv L
  exact ⟨w', h1⟩

/-- **C60**: after any history, an object that a `unique_ptr` or a released pointer has (or whose released pointer was forgotten) is alive
and was never deleted; any other object is dead and was deleted exactly once, as the type it was made with. -/
theorem C60_deleted_once (h : Reach w S) {x t : Nat} (hx : S.types[x]? = some t) :
    ((Owned S x ∨ x ∈ S.leaked) → (∃ v, w.pw.vars x = some (t, v)) ∧ ∀ t', (x, t') ∉ w.log) ∧
    (¬ (Owned S x ∨ x ∈ S.leaked) → w.pw.vars x = none ∧ w.log.count (x, t) = 1 ∧ ∀ t', (x, t') ∈ w.log → t' = t) := by
  have I := h.inv
  have hl : Live S [] x ↔ Owned S x ∨ x ∈ S.leaked := by simp [Live]
  constructor
  · intro ho
    obtain ⟨t', v, h1, h2⟩ := I.live x (hl.2 ho)
    rw [hx] at h1; cases h1
    exact ⟨⟨v, h2⟩, fun t' ht => (I.logged x t' ht).2 (hl.2 ho)⟩
  · intro ho
    have hn : ¬ Live S [] x := fun h => ho (hl.1 h)
    refine ⟨I.dead x hn, I.once x t hx hn, fun t' ht => ?_⟩
    have := (I.logged x t' ht).1
    rw [hx] at this; exact (Option.some.inj this).symm

/-- **C60**: two variables never have the same object. -/
theorem C60_one_owner (h : Reach w S) {d e x : Nat} (hd : S.objOf d = some x) (he : S.objOf e = some x) : d = e := h.inv.one d e x hd he

/-- **C60**: at the end of a program, when all variables are gone and no released pointer was forgotten, the deletions are exactly the
objects made, each once, with its own type. -/
theorem C60_end (h : Reach w S) (he : ∀ d, S.slots d = none) (hl : S.leaked = []) :
    w.log.Nodup ∧ (∀ x t, (x, t) ∈ w.log ↔ S.types[x]? = some t) ∧ w.log.length = S.types.length ∧ ∀ x, w.pw.vars x = none := by
  have hn : ∀ x, ¬ (Owned S x ∨ x ∈ S.leaked) := by
    rintro x (⟨d, hd⟩ | h)
    · simp [SS.objOf, he d] at hd
    · rw [hl] at h; cases h
  have hnl : ∀ x, ¬ Live S [] x := by
    rintro x (h | h | h)
    · exact hn x (.inl h)
    · exact hn x (.inr h)
    · cases h
  have hm : ∀ x t, (x, t) ∈ w.log ↔ S.types[x]? = some t := by
    intro x t
    refine ⟨fun hx => (h.inv.logged x t hx).1, fun hx => ?_⟩
    have := ((C60_deleted_once h hx).2 (hn x)).2.1
    exact List.count_pos_iff.1 (by omega)
  have hnd : w.log.Nodup := by
    rw [List.nodup_iff_count]
    rintro ⟨x, t⟩
    by_cases hx : (x, t) ∈ w.log
    · rw [((C60_deleted_once h ((hm x t).1 hx)).2 (hn x)).2.1]; exact Nat.le_refl _
    · rw [List.count_eq_zero.2 hx]; exact Nat.zero_le _
  refine ⟨hnd, hm, ?_, fun x => h.inv.dead x (hnl x)⟩
  have hp : w.log.Perm (S.types.zipIdx.map fun p => (p.2, p.1)) := by
    have hnd2 : (S.types.zipIdx.map fun p : Nat × Nat => (p.2, p.1)).Nodup := by
      have h1 : ((S.types.zipIdx.map fun p : Nat × Nat => (p.2, p.1)).map Prod.fst).Nodup := by
        rw [List.map_map]
        have : (Prod.fst ∘ fun p : Nat × Nat => (p.2, p.1)) = Prod.snd := rfl
        rw [this, List.zipIdx_map_snd]
        exact List.nodup_range'
      exact List.Pairwise.of_map Prod.fst (fun a b hab e => hab (by rw [e])) h1
    refine (List.perm_ext_iff_of_nodup hnd hnd2).2 ?_
    rintro ⟨x, t⟩
    rw [hm]
    simp only [List.mem_map, Prod.mk.injEq, Prod.exists]
    constructor
    · intro hx; exact ⟨t, x, by rw [List.mem_zipIdx_iff_getElem?]; exact hx, rfl, rfl⟩
    · rintro ⟨a, b, hab, rfl, rfl⟩; rw [List.mem_zipIdx_iff_getElem?] at hab; exact hab
  rw [hp.length_eq]; simp

/-- **C60**: `u.get()`, `u.release()` and `u->` refer to the object: the pointer is null iff there is none, and every method of the
interface is dispatched to the object's own type, with its address. -/
theorem C60_get (h : Reach w S) {d : Nat} {s : Slot} (hs : S.slots d = some s) :
    ∃ o, get d w = some o ∧ (o.val = none ↔ s.obj = none) ∧
      ∀ x, s.obj = some x → o.val = some (.var x) ∧
        ∃ t, S.types[x]? = some t ∧ ∀ m ∈ s.ms, ∃ w', dispatch (.var d) m w.pw = .ok (t, some (.var x)) w' := by
  have I := h.inv
  obtain ⟨o, ho, hp⟩ := I.get hs
  refine ⟨o, ho, ?_, ?_⟩
  · rw [Means.val hp.means]
    cases hobj : s.obj with
    | none => simp [tgt]
    | some x =>
      obtain ⟨t, v, ht, _⟩ := I.live x (.inl ⟨d, by simp [SS.objOf, hs, hobj]⟩)
      simp [tgt, ht]
  · intro x hobj
    obtain ⟨t, v, ht, _⟩ := I.live x (.inl ⟨d, by simp [SS.objOf, hs, hobj]⟩)
    have hm : Den w.pw o t (.var x) none := by have := hp.means; simpa [tgt, hobj, ht, Means] using this
    refine ⟨hm.val, t, ht, fun m hmem => ?_⟩
    obtain ⟨j, _, hj⟩ := dispatch_ev I.fresh ho hm (m := m) (by rw [hp.eqMs]; exact hmem)
    exact ⟨_, hj⟩

/-! ### an example -/

/-- Two unique pointers to objects of types 4 and 5; one is moved, released, and adopted by a `unique_ptr<const I2>` for a smaller
interface; the other is replaced by an object of type 6; then everything is destroyed. -/
def exOps : List Op :=
  [.makeNew 0 false [.user 1, .user 2] 4 10, .makeNull 1 false [.user 1, .user 2], .moveAssign 1 0, .makeNew 2 false [] 5 11,
   .resetNew 2 6 12, .release 3 1, .adopt 4 true [.user 1] 3, .destroy 0, .destroy 1, .destroy 2, .destroy 4]

/-- Execute, and follow the ownership. -/
def run : List Op → UW → SS → Option (UW × SS)
  | [], w, S => some (w, S)
  | op :: ops, w, S => (exec op w).bind fun w' => run ops w' (specStep S op)

def AllLegal (S : SS) : List Op → Prop
  | [] => True
  | op :: ops => Legal S op ∧ AllLegal (specStep S op) ops

theorem run_reach {ops : List Op} : ∀ {w : UW} {S : SS}, Reach w S → AllLegal S ops → ∃ w', run ops w S = some (w', ops.foldl specStep S) ∧
    Reach w' (ops.foldl specStep S) := by
  induction ops with
  | nil => intro w S h _; exact ⟨w, rfl, h⟩
  | cons op ops ih =>
    intro w S h L
    obtain ⟨w1, h1⟩ := C60_step h L.1
    obtain ⟨w', h2, h3⟩ := ih (.step h L.1 h1) L.2
    exact ⟨w', by simp [run, h1, h2], h3⟩

/-- The hypotheses of the theorems are met: at the end everything is deleted, in the order 5 (replaced), 6, 4. -/
example : ∃ w, run exOps .init .init = some (w, exOps.foldl specStep .init) ∧ Reach w (exOps.foldl specStep .init) ∧
    w.log = [(1, 5), (2, 6), (0, 4)] := by
  have L : AllLegal .init exOps :=
    ⟨rfl, rfl, ⟨_, _, rfl, rfl, rfl, rfl, rfl, rfl⟩, rfl, ⟨_, rfl, rfl⟩, ⟨rfl, _, rfl, rfl⟩, ⟨rfl, _, rfl, rfl, [], [.user 2], rfl⟩,
      ⟨_, rfl, rfl⟩, ⟨_, rfl, rfl⟩, ⟨_, rfl, rfl⟩, ⟨_, rfl, rfl⟩, trivial⟩
  obtain ⟨w, h1, h2⟩ := run_reach .init L
  refine ⟨w, h1, h2, ?_⟩
  have : (run exOps .init .init).map (fun p => p.1.log) = some [(1, 5), (2, 6), (0, 4)] := by decide +kernel
  rw [h1] at this
  exact Option.some.inj this

end AnyAny.UPtr
