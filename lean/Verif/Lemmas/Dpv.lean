import Verif.Spec.DpvHist
/-
Lemmas about the model of `data_parallel_vector`.
-/
namespace AnyAny.Dpv

variable {n : Nat} {V : Fin n → Type}

/-! ### outcomes -/

/-- `m` started in `w` ends without undefined behaviour: normally with `P`, or by an exception with `E`. -/
def Tri {α} (m : M V α) (w : World V) (P : α → World V → Prop) (E : World V → Prop) : Prop :=
  match m w with
  | .ok a w' => P a w'
  | .exn w' => E w'
  | .ub => False

theorem bind_apply {α β} (m : M V α) (f : α → M V β) (w : World V) :
    (m >>= f) w = match m w with | .ok a w => f a w | .exn w => .exn w | .ub => .ub := rfl

theorem pure_apply {α} (a : α) (w : World V) : (pure a : M V α) w = .ok a w := rfl

theorem Tri.bind {α β} {m : M V α} {f : α → M V β} {w : World V} {P : β → World V → Prop} {E : World V → Prop}
    (h : Tri m w (fun a w' => Tri (f a) w' P E) E) : Tri (m >>= f) w P E := by
  unfold Tri at h ⊢
  rw [bind_apply]
  cases hm : m w with
  | ok a w' => rw [hm] at h; exact h
  | exn w' => rw [hm] at h; exact h
  | ub => rw [hm] at h; exact h

theorem Tri.pure {α} {a : α} {w : World V} {P : α → World V → Prop} {E : World V → Prop} (h : P a w) : Tri (Pure.pure a : M V α) w P E := h

theorem Tri.mono {α} {m : M V α} {w : World V} {P Q : α → World V → Prop} {E F : World V → Prop} (h : Tri m w P E)
    (hP : ∀ a w', P a w' → Q a w') (hE : ∀ w', E w' → F w') : Tri m w Q F := by
  unfold Tri at h ⊢
  cases hm : m w with
  | ok a w' => rw [hm] at h; exact hP _ _ h
  | exn w' => rw [hm] at h; exact hE _ h
  | ub => rw [hm] at h; exact h

theorem Tri.ite {α} {c : Prop} [Decidable c] {m m' : M V α} {w : World V} {P : α → World V → Prop} {E : World V → Prop}
    (h1 : c → Tri m w P E) (h2 : ¬ c → Tri m' w P E) : Tri (if c then m else m') w P E := by
  split
  · exact h1 ‹_›
  · exact h2 ‹_›

theorem Tri.seq {α β} {m : M V α} {f : α → M V β} {w : World V} {Q : α → World V → Prop} {P : β → World V → Prop} {E : World V → Prop}
    (h : Tri m w Q E) (hf : ∀ a w', Q a w' → Tri (f a) w' P E) : Tri (m >>= f) w P E := by
  refine Tri.bind ?_
  unfold Tri at h ⊢
  cases hm : m w with
  | ok a w' => rw [hm] at h; exact hf _ _ h
  | exn w' => rw [hm] at h; exact h
  | ub => rw [hm] at h; exact h

/-! ### maps -/

theorem upd_same {α} (f : Nat → Option α) (k : Nat) (v : Option α) : upd f k v k = v := by simp [upd]
theorem upd_other {α} (f : Nat → Option α) {k x : Nat} (v : Option α) (h : x ≠ k) : upd f k v x = f x := by simp [upd, h]
theorem upd_upd {α} (f : Nat → Option α) (k : Nat) (v v' : Option α) : upd (upd f k v) k v' = upd f k v' := by
  funext x; by_cases h : x = k <;> simp [upd, h]
theorem upd_self {α} (f : Nat → Option α) {k : Nat} {v : Option α} (h : f k = v) : upd f k v = f := by
  funext x; by_cases hx : x = k
  · subst hx; simp [upd, h]
  · simp [upd, hx]
theorem upd_comm {α} (f : Nat → Option α) {k l : Nat} (v v' : Option α) (h : k ≠ l) : upd (upd f k v) l v' = upd (upd f l v') k v := by
  funext x
  by_cases h1 : x = k <;> by_cases h2 : x = l <;> simp_all [upd]

theorem setP_same (p : Parts V) (j : Fin n) (c : Col (V j)) : setP p j c j = c := by simp [setP]
theorem setP_other (p : Parts V) {j k : Fin n} (c : Col (V j)) (h : k ≠ j) : setP p j c k = p k := by simp [setP, h]

/-! ### columns -/

/-- The columns of a container with contents `xs`. -/
structure Good (p : Parts V) (xs : List (Rec V)) : Prop where
  data : ∀ j, (p j).data = xs.map (· j)
  cap : ∀ j, (p j).data.length ≤ (p j).cap

theorem Good.len {p : Parts V} {xs : List (Rec V)} (h : Good p xs) (j : Fin n) : (p j).data.length = xs.length := by
  rw [h.data]; simp

theorem Good.size {p : Parts V} {xs : List (Rec V)} (h : Good p xs) (hn : 0 < n) : sizeP p = xs.length := by
  simp [sizeP, hn, h.len]

theorem Good.read {p : Parts V} {xs : List (Rec V)} (h : Good p xs) {i : Nat} (hi : i < xs.length) : readRec p i = some xs[i] := by
  have hl : ∀ j, i < (p j).data.length := fun j => by rw [h.len]; exact hi
  unfold readRec
  rw [dif_pos hl]
  congr 1
  funext j
  have : (p j).data[i]'(hl j) = (xs.map (· j))[i]'(by simpa using hi) := by simp only [h.data]
  rw [this]; simp

/-- The contents are determined by the columns. -/
theorem Good.inj {p : Parts V} {xs ys : List (Rec V)} (hn : 0 < n) (h : Good p xs) (h' : Good p ys) : xs = ys := by
  apply List.ext_getElem
  · rw [← h.size hn, ← h'.size hn]
  · intro i h1 h2
    have := h.read h1
    rw [h'.read h2] at this
    exact (Option.some.inj this).symm

theorem foldl_min_le (cs : List Nat) (c : Nat) : cs.foldl min c ≤ c ∧ ∀ x ∈ cs, cs.foldl min c ≤ x := by
  induction cs generalizing c with
  | nil => simp
  | cons a cs ih =>
    simp only [List.foldl_cons, List.mem_cons, forall_eq_or_imp]
    obtain ⟨h1, h2⟩ := ih (min c a)
    exact ⟨by omega, by omega, h2⟩

theorem le_foldl_min (cs : List Nat) (c k : Nat) (h : k ≤ c) (h' : ∀ x ∈ cs, k ≤ x) : k ≤ cs.foldl min c := by
  induction cs generalizing c with
  | nil => exact h
  | cons a cs ih =>
    simp only [List.foldl_cons]
    exact ih _ (by have := h' a (by simp); omega) fun x hx => h' x (by simp [hx])

theorem capacityP_le (p : Parts V) (j : Fin n) : capacityP p ≤ (p j).cap := by
  unfold capacityP
  have hj : (p j).cap ∈ (List.finRange n).map fun j => (p j).cap := List.mem_map.2 ⟨j, List.mem_finRange j, rfl⟩
  split
  · rename_i h; rw [h] at hj; cases hj
  · rename_i c cs h
    rw [h] at hj
    obtain ⟨h1, h2⟩ := foldl_min_le cs c
    rcases List.mem_cons.1 hj with h3 | h3
    · rw [h3]; exact h1
    · exact h2 _ h3

theorem le_capacityP {p : Parts V} {k : Nat} (hn : 0 < n) (h : ∀ j, k ≤ (p j).cap) : k ≤ capacityP p := by
  unfold capacityP
  split
  · rename_i h0
    have : (List.finRange n).length = 0 := by simpa using congrArg List.length h0
    simp at this; omega
  · rename_i c cs h0
    have hall : ∀ x ∈ c :: cs, k ≤ x := by
      rw [← h0]
      intro x hx
      obtain ⟨j, _, rfl⟩ := List.mem_map.1 hx
      exact h j
    exact le_foldl_min _ _ _ (hall c (by simp)) fun x hx => hall x (by simp [hx])

theorem Good.capacity {p : Parts V} {xs : List (Rec V)} (hn : 0 < n) (h : Good p xs) : xs.length ≤ capacityP p :=
  le_capacityP hn fun j => by rw [← h.len j]; exact h.cap j

theorem room_cap {α} {grow : Nat → Nat → Nat} (hg : ∀ c k, k ≤ grow c k) (k t : Nat) (c : Col α) : k ≤ (c.room grow k t).cap := by
  unfold Col.room
  split
  · assumption
  · exact hg _ _

theorem room_data {α} (grow : Nat → Nat → Nat) (k t : Nat) (c : Col α) : (c.room grow k t).data = c.data := by
  unfold Col.room; split <;> rfl

theorem room_eq {α} (grow : Nat → Nat → Nat) {k : Nat} (t : Nat) {c : Col α} (h : k ≤ c.cap) : c.room grow k t = c := by
  unfold Col.room; rw [if_pos h]

theorem room_le {α} {grow : Nat → Nat → Nat} (hg : ∀ c k, k ≤ grow c k) (k t : Nat) (c : Col α) (h : c.data.length ≤ c.cap)
    (hk : c.data.length ≤ k) : (c.room grow k t).data.length ≤ (c.room grow k t).cap := by
  rw [room_data]; exact Nat.le_trans hk (room_cap hg _ _ _)

/-! ### all columns -/

variable {env : Env V}

/-- An operation of the environment throws. -/
def MayThrow (env : Env V) : Prop := ∃ t, env.throws t ≠ none

/-- After a sequence of operations on columns each of them is done, untouched, or left by the throwing one. -/
theorem forCols_cases (f : (j : Fin n) → Nat → Col (V j) → Col (V j)) (left) (js : List (Fin n)) (hjs : js.Nodup) (p : Parts V) (t : Nat) :
    (∀ j, j ∉ js → (forCols env f left js p t).1 j = p j) ∧
    ((forCols env f left js p t).2.2 = false → ∀ j ∈ js, ∃ t', (forCols env f left js p t).1 j = f j t' (p j)) ∧
    ((forCols env f left js p t).2.2 = true → MayThrow env ∧
      ∀ j, (∃ t', (forCols env f left js p t).1 j = f j t' (p j)) ∨ (forCols env f left js p t).1 j = p j ∨
        ∃ g, (forCols env f left js p t).1 j = left g j (p j)) := by
  induction js generalizing p t with
  | nil => exact ⟨fun _ _ => rfl, fun _ j hj => (by simp at hj), fun h => by simp [forCols] at h⟩
  | cons j js ih =>
    obtain ⟨hj, hjs⟩ := List.nodup_cons.1 hjs
    unfold forCols
    cases ht : env.throws t with
    | some g =>
      refine ⟨fun k hk => ?_, fun h => by simp at h, fun _ => ⟨⟨t, by simp [ht]⟩, fun k => ?_⟩⟩
      · exact setP_other _ _ fun h => hk (by simp [h])
      · by_cases hk : k = j
        · subst hk; right; right; exact ⟨g, setP_same _ _ _⟩
        · right; left; exact setP_other _ _ hk
    | none =>
      obtain ⟨h1, h2, h3⟩ := ih hjs (setP p j (f j t (p j))) (t + 1)
      refine ⟨fun k hk => ?_, fun h k hk => ?_, fun h => ?_⟩
      · have hk' : k ≠ j ∧ k ∉ js := by simpa using hk
        rw [h1 k hk'.2, setP_other _ _ hk'.1]
      · rcases List.mem_cons.1 hk with rfl | hk
        · exact ⟨t, by rw [h1 k hj, setP_same]⟩
        · have hkj : k ≠ j := fun he => hj (he ▸ hk)
          obtain ⟨t', h4⟩ := h2 h k hk
          exact ⟨t', by rw [h4, setP_other _ _ hkj]⟩
      · obtain ⟨h4, h5⟩ := h3 h
        refine ⟨h4, fun k => ?_⟩
        by_cases hk : k = j
        · subst hk
          left; exact ⟨t, by rw [h1 k hj, setP_same]⟩
        · have := h5 k
          rw [setP_other _ _ hk] at this
          exact this

/-- The same buffers with the same capacities: spans stay valid. -/
def SameBufs (p p' : Parts V) : Prop := ∀ j, (p' j).buf = (p j).buf ∧ (p' j).cap = (p j).cap

theorem SameBufs.refl (p : Parts V) : SameBufs p p := fun _ => ⟨rfl, rfl⟩
theorem SameBufs.trans {p q r : Parts V} (h : SameBufs p q) (h' : SameBufs q r) : SameBufs p r :=
  fun j => ⟨(h' j).1.trans (h j).1, (h' j).2.trans (h j).2⟩
theorem SameBufs.capacity {p q : Parts V} (h : SameBufs p q) : capacityP q = capacityP p := by
  unfold capacityP
  have : (fun j => (q j).cap) = fun j => (p j).cap := by funext j; exact (h j).2
  rw [this]

/-- Container `d` now has contents `xs`, and if `need` elements fit into its capacity it has kept its buffers. -/
def Post (w : World V) (d : Nat) (p : Parts V) (need : Nat) (xs : List (Rec V)) (w' : World V) : Prop :=
  ∃ p', w'.vecs = upd w.vecs d (some p') ∧ Good p' xs ∧ (need ≤ capacityP p → SameBufs p p')

theorem Post.get {w w' : World V} {d : Nat} {p : Parts V} {need : Nat} {xs : List (Rec V)} (h : Post w d p need xs w') :
    ∃ p', w'.vecs d = some p' ∧ Good p' xs ∧ (need ≤ capacityP p → SameBufs p p') := by
  obtain ⟨p', h1, h2, h3⟩ := h
  exact ⟨p', by rw [h1, upd_same], h2, h3⟩

theorem Post.trans {w w' w'' : World V} {d : Nat} {p p' : Parts V} {need need' : Nat} {ys : List (Rec V)}
    (h : w'.vecs = upd w.vecs d (some p')) (h3 : need ≤ capacityP p → SameBufs p p') (hn : need' ≤ need)
    (h' : Post w' d p' need' ys w'') : Post w d p need ys w'' := by
  obtain ⟨q, g1, g2, g3⟩ := h'
  refine ⟨q, by rw [g1, h, upd_upd], g2, fun hk => ?_⟩
  have h4 := h3 hk
  exact h4.trans (g3 (by rw [h4.capacity]; exact Nat.le_trans hn hk))

theorem apply_tri {w : World V} {d : Nat} {p : Parts V} (hp : w.vecs d = some p) {f : (j : Fin n) → Nat → Col (V j) → Col (V j)} {left}
    {xs : List (Rec V)} {need : Nat} (hf : ∀ j t, (f j t (p j)).data = xs.map (· j) ∧ (f j t (p j)).data.length ≤ (f j t (p j)).cap ∧
      (need ≤ (p j).cap → (f j t (p j)).buf = (p j).buf ∧ (f j t (p j)).cap = (p j).cap)) :
    Tri (apply env d f left) w (fun _ w' => Post w d p need xs w')
      (fun w' => MayThrow env ∧ ∃ p', w'.vecs = upd w.vecs d (some p') ∧
        ∀ j, (∃ t', p' j = f j t' (p j)) ∨ p' j = p j ∨ ∃ g, p' j = left g j (p j)) := by
  obtain ⟨h1, h2, h3⟩ := forCols_cases (env := env) f left (List.finRange n) (List.nodup_finRange n) p w.tick
  unfold Tri apply
  simp only [hp]
  cases hb : (forCols env f left (List.finRange n) p w.tick).2.2 with
  | true =>
    obtain ⟨h4, h5⟩ := h3 hb
    exact ⟨h4, _, rfl, h5⟩
  | false =>
    have h4 := h2 hb
    refine ⟨_, rfl, ⟨fun j => ?_, fun j => ?_⟩, fun hk j => ?_⟩
    · obtain ⟨t', h5⟩ := h4 j (List.mem_finRange j)
      rw [h5]; exact (hf j t').1
    · obtain ⟨t', h5⟩ := h4 j (List.mem_finRange j)
      rw [h5]; exact (hf j t').2.1
    · obtain ⟨t', h5⟩ := h4 j (List.mem_finRange j)
      rw [h5]; exact (hf j t').2.2 (Nat.le_trans hk (capacityP_le p j))

end AnyAny.Dpv
