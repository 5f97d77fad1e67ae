import Verif.Props.DpvSpans
/-
C67 when operations throw: in every state, also one that an earlier exception left behind (where fields may have different numbers of elements).
-/
namespace AnyAny.Dpv

variable {n : Nat} {V : Fin n → Type} {env : Env V} {w : World V}

/-- How many elements the operation adds to each field. -/
def adds : Op V → Nat
  | .emplace _ _ _ | .emplaceBack _ _ | .pushBack _ _ | .insertVal _ _ _ => 1
  | .insertCount _ _ k _ => k
  | .insertRange _ _ vs _ => vs.length
  | _ => 0

/-- The size or capacity that the operation asks for. -/
def asks : Op V → Nat
  | .reserve _ k | .resize _ k | .resizeVal _ k _ => k
  | _ => 0

/-- The operation creates the container `d`. -/
def creates (d : Nat) : Op V → Prop
  | .defaultCtor a | .countValueCtor a _ _ | .countCtor a _ | .rangeCtor a _ _ | .copyCtor a _ | .moveCtor a _ => a = d
  | .assignCount _ tmp _ _ | .assignRange _ tmp _ _ => tmp = d
  | _ => False

/-- If the operation changes `d`: the fields of `d`, with the elements that are added, have at most `c` elements, and no more is asked for. -/
def FitsNow (d c : Nat) (w : World V) (op : Op V) : Prop :=
  d ∈ changes op → (∀ j b l, spanOf d j w = .ok (b, l) w → l + adds op ≤ c) ∧ asks op ≤ c

/-- From a state with `P` the code keeps the buffers of `d`, whether it returns (then with `Q`) or throws. -/
def Holds {α} (d : Nat) (P Q : Parts V → Prop) (m : M V α) : Prop := ∀ w p, w.vecs d = some p → P p → match m w with
  | .ok _ w' => ∃ p', w'.vecs d = some p' ∧ SameBufs p p' ∧ Q p'
  | .exn w' => ∃ p', w'.vecs d = some p' ∧ SameBufs p p'
  | .ub => True

theorem Holds.seq {α β} {d : Nat} {P Q R : Parts V → Prop} {m : M V α} {f : α → M V β} (h : Holds d P Q m) (hf : ∀ a, Holds d Q R (f a)) :
    Holds d P R (m >>= f) := by
  intro w p hp hP
  rw [bind_apply]
  have h1 := h w p hp hP
  cases hm : m w with
  | ok a w1 =>
    rw [hm] at h1
    obtain ⟨p1, hp1, hb1, hQ⟩ := h1
    have h2 := hf a w1 p1 hp1 hQ
    dsimp only
    cases hf : f a w1 with
    | ok b w2 => rw [hf] at h2; obtain ⟨p2, hp2, hb2, hR⟩ := h2; exact ⟨p2, hp2, hb1.trans hb2, hR⟩
    | exn w2 => rw [hf] at h2; obtain ⟨p2, hp2, hb2⟩ := h2; exact ⟨p2, hp2, hb1.trans hb2⟩
    | ub => trivial
  | exn w1 => rw [hm] at h1; exact h1
  | ub => trivial

theorem Holds.of_leaves {α} {d : Nat} {P : Parts V → Prop} {m : M V α} (h : Leaves d m) : Holds d P P m := by
  intro w p hp hP
  have := h w
  cases hm : m w with
  | ok a w1 => rw [hm] at this; exact ⟨p, this.trans hp, .refl p, hP⟩
  | exn w1 => rw [hm] at this; exact ⟨p, this.trans hp, .refl p⟩
  | ub => trivial

theorem Holds.ub {α} {d : Nat} {P Q : Parts V → Prop} : Holds d P Q (ub : M V α) := fun _ _ _ _ => trivial

theorem Holds.mono {α} {d : Nat} {P P' Q Q' : Parts V → Prop} {m : M V α} (h : Holds d P Q m) (hP : ∀ p, P' p → P p) (hQ : ∀ p, Q p → Q' p) :
    Holds d P' Q' m := by
  intro w p hp hp'
  have := h w p hp (hP p hp')
  cases hm : m w with
  | ok a w1 => rw [hm] at this; obtain ⟨p', h1, h2, h3⟩ := this; exact ⟨p', h1, h2, hQ p' h3⟩
  | exn w1 => rw [hm] at this; exact this
  | ub => trivial

theorem Holds.apply {d : Nat} {P Q : Parts V → Prop} {f left} (hf : ∀ p, P p → ∀ j t, (f j t (p j)).buf = (p j).buf ∧ (f j t (p j)).cap = (p j).cap)
    (hl : ∀ g j (c : Col (V j)), (left g j c).buf = c.buf ∧ (left g j c).cap = c.cap)
    (hQ : ∀ p p', P p → SameBufs p p' → (∀ j, ∃ t, p' j = f j t (p j)) → Q p') : Holds d P Q (apply env d f left : M V Unit) := by
  intro w p hp hP
  unfold Dpv.apply
  rw [hp]
  dsimp only
  obtain ⟨-, h2, h3⟩ := forCols_cases (env := env) f left (List.finRange n) (List.nodup_finRange n) p w.tick
  by_cases hb : (forCols env f left (List.finRange n) p w.tick).2.2 = true
  · rw [if_pos hb]
    refine ⟨_, upd_same _ _ _, fun j => ?_⟩
    rcases (h3 hb).2 j with ⟨t, h⟩ | h | ⟨g, h⟩ <;> rw [h]
    · exact hf p hP j t
    · exact ⟨rfl, rfl⟩
    · exact hl g j _
  · rw [if_neg hb]
    have hs : SameBufs p (forCols env f left (List.finRange n) p w.tick).1 := fun j => by
      obtain ⟨t, h⟩ := h2 (by simpa using hb) j (List.mem_finRange j)
      rw [h]
      exact hf p hP j t
    exact ⟨_, upd_same _ _ _, hs, hQ p _ hP hs fun j => h2 (by simpa using hb) j (List.mem_finRange j)⟩

theorem Holds.applyNoexcept {d : Nat} {P : Parts V → Prop} {f : (j : Fin n) → Col (V j) → Col (V j)}
    (hf : ∀ j c, (f j c).buf = c.buf ∧ (f j c).cap = c.cap) : Holds d P (fun _ => True) (applyNoexcept d f) := by
  intro w p hp _
  simp only [Dpv.applyNoexcept, bind, M.bind, Dpv.get, hp, Dpv.put]
  exact ⟨_, upd_same _ _ _, fun j => hf j _, trivial⟩

/-- Every field has capacity for `c` elements, and `k` more are at most `c`. -/
def Room (c k : Nat) (p : Parts V) : Prop := (∀ j, c ≤ (p j).cap) ∧ ∀ j, (p j).data.length + k ≤ c

theorem Room.le {c k k' : Nat} {p : Parts V} (h : Room c k p) (hk : k' ≤ k) : Room c k' p := ⟨h.1, fun j => by have := h.2 j; omega⟩

theorem room_same {α} {grow : Nat → Nat → Nat} {k t : Nat} {c : Col α} (h : k ≤ c.cap) : Col.room grow k t c = c := if_pos h

theorem strong_bufs (g) (j : Fin n) (c : Col (V j)) : (leftStrong g j c).buf = c.buf ∧ (leftStrong g j c).cap = c.cap := ⟨rfl, rfl⟩
theorem basic_bufs (g) (j : Fin n) (c : Col (V j)) : (leftBasic g j c).buf = c.buf ∧ (leftBasic g j c).cap = c.cap := ⟨rfl, rfl⟩
theorem elem_bufs (i : Nat) (g) (j : Fin n) (c : Col (V j)) : (leftElem i g j c).buf = c.buf ∧ (leftElem i g j c).cap = c.cap := ⟨rfl, rfl⟩

theorem Holds.insertCols {d i c k m : Nat} {xs : (j : Fin n) → List (V j)} (hx : ∀ j, (xs j).length = m) :
    Holds d (Room c (k + m)) (Room c k) (insertCols env d i xs) := by
  refine Holds.seq (.of_leaves (Leaves.get.seq fun _ => .ite (.pure _) .ub)) fun _ => .apply (fun p hP j t => ?_) basic_bufs fun p p' hP hs h => ?_
  · have h1 := hP.1 j
    have h2 := hP.2 j
    have h3 := hx j
    simp only [Col.insert, room_same (show (p j).data.length + (xs j).length ≤ (p j).cap by omega), and_self]
  · refine ⟨fun j => (hs j).2 ▸ hP.1 j, fun j => ?_⟩
    obtain ⟨t, ht⟩ := h j
    have h2 := hP.2 j
    have h3 := hx j
    rw [ht]
    simp only [Col.insert, List.length_append, List.length_take, List.length_drop]
    omega

theorem Holds.emplace {d i c k : Nat} {v : Rec V} : Holds d (Room c (k + 1)) (Room c k) (emplace env d i v) :=
  (Holds.of_leaves .iteratorAt).seq fun _ => (Holds.insertCols (m := 1) fun _ => rfl).seq fun _ => .of_leaves (Leaves.iteratorAt.seq fun _ => .pure _)

theorem Holds.emplaceBack {d c k : Nat} {v : Rec V} : Holds d (Room c (k + 1)) (Room c k) (emplaceBack env d v) := by
  refine .apply (fun p hP j t => ?_) strong_bufs fun p p' hP hs h => ⟨fun j => (hs j).2 ▸ hP.1 j, fun j => ?_⟩
  · have h1 := hP.1 j
    have h2 := hP.2 j
    simp only [Col.pushBack, room_same (show (p j).data.length + 1 ≤ (p j).cap by omega), and_self]
  · obtain ⟨t, ht⟩ := h j
    have h2 := hP.2 j
    rw [ht]
    simp only [Col.pushBack, List.length_append, List.length_cons, List.length_nil]
    omega

theorem Holds.emplaceBackAll {d c : Nat} : ∀ vs : List (Rec V), Holds d (Room c vs.length) (Room c 0) (emplaceBackAll env d vs)
  | [] => .of_leaves (.pure _)
  | _ :: vs => Holds.seq Holds.emplaceBack fun _ => emplaceBackAll vs

theorem Holds.emplaceAll {d c : Nat} : ∀ (i : Nat) (vs : List (Rec V)), Holds d (Room c vs.length) (Room c 0) (emplaceAll env d i vs)
  | _, [] => .of_leaves (.pure _)
  | _, _ :: vs => Holds.seq Holds.emplace fun _ => emplaceAll _ vs

theorem Holds.reserve {d c k m : Nat} (hm : m ≤ c) : Holds d (Room c k) (Room c k) (reserve env d m) := by
  refine .apply (fun p hP j t => ?_) strong_bufs fun p p' hP hs h => ⟨fun j => (hs j).2 ▸ hP.1 j, fun j => ?_⟩
  · have := hP.1 j
    simp only [Col.reserve, room_same (show m ≤ (p j).cap by omega), and_self]
  · obtain ⟨t, ht⟩ := h j
    have := hP.1 j
    rw [ht, Col.reserve, room_same (by omega)]
    exact hP.2 j

theorem sizeP_le {c k : Nat} {p : Parts V} (hk : k ≤ c) (h : Room c k p) : sizeP p + k ≤ c := by
  unfold sizeP
  split
  · exact h.2 _
  · omega

theorem Holds.insertRange {d c i : Nat} {vs : List (Rec V)} {ra : Bool} (hk : vs.length ≤ c) :
    Holds d (Room c vs.length) (Room c 0) (insertRange env d i vs ra) := by
  refine (Holds.of_leaves .iteratorAt).seq fun _ => ?_
  intro w p hp hP
  have hs := sizeP_le hk hP
  have : Holds d (Room c vs.length) (Room c 0) (if i = sizeP p then (do
      Dpv.emplaceBackAll env d vs
      Dpv.iteratorAt d i
      pure i : M V Nat)
    else do
      reserveFor env d (sizeP p + vs.length) ra
      insertMiddle env d i vs
      Dpv.iteratorAt d i
      pure i) := by
    split
    · exact (Holds.emplaceBackAll vs).seq fun _ => .of_leaves (Leaves.iteratorAt.seq fun _ => .pure _)
    · refine Holds.seq (Q := Room c vs.length) ?_ fun _ => Holds.seq (Q := Room c 0) ?_ fun _ => .of_leaves (Leaves.iteratorAt.seq fun _ => .pure _)
      · unfold reserveFor
        split
        · exact .reserve hs
        · exact .of_leaves (.pure _)
      · cases vs with
        | nil => exact .of_leaves (.pure _)
        | cons v vs => exact Holds.seq Holds.emplace fun _ => .emplaceAll _ vs
  have h := this w p hp hP
  have e : (Dpv.size d >>= fun s => if i = s then (do
      Dpv.emplaceBackAll env d vs
      Dpv.iteratorAt d i
      pure i : M V Nat)
    else do
      reserveFor env d (s + vs.length) ra
      insertMiddle env d i vs
      Dpv.iteratorAt d i
      pure i) w = (if i = sizeP p then (do
      Dpv.emplaceBackAll env d vs
      Dpv.iteratorAt d i
      pure i : M V Nat)
    else do
      reserveFor env d (sizeP p + vs.length) ra
      insertMiddle env d i vs
      Dpv.iteratorAt d i
      pure i) w := by
    simp only [Dpv.size, bind, M.bind, Dpv.get, hp, pure, M.pure]
  rw [e]
  exact h

theorem Holds.resize {d c k m : Nat} (x : (j : Fin n) → V j) (hm : m ≤ c) :
    Holds d (Room c k) (fun _ => True) (Dpv.apply env d (fun j t c => Col.resize env.grow m (x j) t c) leftStrong) := by
  refine .apply (fun p hP j t => ?_) strong_bufs fun _ _ _ _ _ => trivial
  have := hP.1 j
  simp only [Col.resize, room_same (show m ≤ (p j).cap by omega), and_self]

theorem Holds.unit {α} {d : Nat} {P Q : Parts V → Prop} {m : M V α} {f : α → Out V} (h : Holds d P Q m) :
    Holds d P (fun _ => True) (m >>= fun a => pure (f a)) :=
  h.seq fun _ => (Holds.of_leaves (.pure _)).mono (fun _ _ => trivial) fun _ h => h

theorem holds_swapField {d a i b k : Nat} {j : Fin n} : Holds d (fun _ => True) (fun _ => True) (swapField a i b k j : M V Unit) := by
  intro w p hp _
  have := keeps_swapField (d := d) (a := a) (i := i) (b := b) (k := k) (j := j) w p hp
  cases hm : (swapField a i b k j : M V Unit) w with
  | ok u w1 => obtain ⟨p', h1, h2⟩ := this u w1 hm; exact ⟨p', h1, h2, trivial⟩
  | exn w1 =>
    exfalso
    simp only [swapField, bind, M.bind, get] at hm
    cases ha : w.vecs a with
    | none => rw [ha] at hm; cases hm
    | some pa =>
      cases hb : w.vecs b with
      | none => rw [ha] at hm; dsimp only at hm; rw [hb] at hm; cases hm
      | some pb =>
        rw [ha] at hm
        dsimp only at hm
        rw [hb] at hm
        dsimp only at hm
        rcases hx : (pa j).data[i]? with _ | x <;> rcases hy : (pb j).data[k]? with _ | y <;> rw [hx, hy] at hm
        case some.some =>
          simp only [M.bind, put, get] at hm
          cases hb' : upd w.vecs a (some (setP pa j (Col.set i y (pa j)))) b with
          | none => rw [hb'] at hm; cases hm
          | some q' => rw [hb'] at hm; cases hm
        all_goals cases hm
  | ub => trivial

theorem holds_swapFields {d a i b k : Nat} : ∀ js : List (Fin n), Holds d (fun _ => True) (fun _ => True) (swapFields a i b k js : M V Unit)
  | [] => .of_leaves (.pure _)
  | _ :: js => Holds.seq holds_swapField fun _ => holds_swapFields js

theorem holds_exec {op : Op V} {d c : Nat} (hr : ¬ replaces d op) (hn : ¬ creates d op) (hd : d ∈ changes op) (ha : adds op ≤ c) (hk : asks op ≤ c) :
    Holds d (Room c (adds op)) (fun _ => True) (exec env op) := by
  cases op <;> simp only [changes, List.mem_cons, List.not_mem_nil, or_false] at hd <;> simp only [replaces, creates, adds, asks, not_or] at hr hn ha hk ⊢
  case emplace a i v => subst hd; exact (Holds.emplace (k := 0)).unit
  case emplaceBack a v => subst hd; exact (Holds.emplaceBack (k := 0)).unit
  case pushBack a v => subst hd; exact (Holds.emplaceBack (k := 0)).unit
  case insertVal a i v => subst hd; exact (Holds.emplace (k := 0)).unit
  case insertCount a i k v =>
    subst hd
    refine Holds.unit (Q := Room c 0) ?_
    refine (Holds.of_leaves .iteratorAt).seq fun _ => Holds.seq (Q := Room c 0) ?_ fun _ => .of_leaves (Leaves.iteratorAt.seq fun _ => .pure _)
    have := Holds.insertCols (env := env) (d := d) (i := i) (c := c) (k := 0) (m := k) (xs := fun j => List.replicate k (v j)) fun _ => by simp
    simpa using this
  case insertRange a i vs ra => subst hd; exact (Holds.insertRange ha).unit
  case erase a i =>
    subst hd
    refine Holds.unit (Q := fun _ => True) ((Holds.of_leaves Leaves.get).seq fun _ => ?_)
    split
    · exact (Holds.apply (Q := fun _ => True) (fun _ _ _ _ => ⟨rfl, rfl⟩) basic_bufs fun _ _ _ _ _ => trivial).seq fun _ =>
        .of_leaves (Leaves.iteratorAt.seq fun _ => .pure _)
    · exact .ub
  case clear a => subst hd; exact Holds.unit (m := clear d) (.applyNoexcept fun _ _ => ⟨rfl, rfl⟩)
  case popBack a =>
    subst hd
    refine Holds.unit (Q := fun _ => True) ((Holds.of_leaves Leaves.get).seq fun _ => ?_)
    split
    · exact .applyNoexcept fun _ _ => ⟨rfl, rfl⟩
    · exact .ub
  case reserve a k => subst hd; exact (Holds.reserve hk).unit
  case resize a k => subst hd; exact (Holds.resize _ hk).unit
  case resizeVal a k v => subst hd; exact (Holds.resize _ hk).unit
  case assignElem a i v =>
    subst hd
    exact ((Holds.of_leaves .proxyAt).seq fun _ => Holds.apply (Q := fun _ => True) (fun _ _ _ _ => ⟨rfl, rfl⟩) (elem_bufs i) fun _ _ _ _ _ => trivial).unit
  case assignRef a i e k =>
    subst hd
    refine Holds.unit (Q := fun _ => True) ((Holds.of_leaves .proxyAt).seq fun _ => (Holds.of_leaves .proxyAt).seq fun q =>
      .apply (fun p _ j t => ?_) (elem_bufs i) fun _ _ _ _ _ => trivial)
    split <;> exact ⟨rfl, rfl⟩
  case swapRef a i b k =>
    refine Holds.unit (Q := fun _ => True) ((Holds.of_leaves .proxyAt).seq fun _ => (Holds.of_leaves .proxyAt).seq fun _ =>
      (holds_swapFields _).mono (fun _ _ => trivial) fun _ h => h)
  case iterMove a i =>
    subst hd
    refine Holds.unit (Q := fun _ => True) ((Holds.of_leaves .proxyAt).seq fun p => ?_)
    split
    · exact .ub
    · exact Holds.seq (Q := fun _ => True) (.applyNoexcept fun _ _ => ⟨rfl, rfl⟩) fun _ => .of_leaves (.pure _)
  case setField a i j x =>
    subst hd
    refine Holds.unit (Q := fun _ => True) (m := setField d i j x) fun w p hp _ => ?_
    simp only [setField, bind, M.bind, get, hp]
    by_cases hi : i < (p j).data.length
    · rw [if_pos hi]
      exact ⟨_, upd_same _ _ _, sameBufs_set _ _ _ _, trivial⟩
    · rw [if_neg hi]
      trivial
  all_goals first
    | exact absurd hd.symm hn
    | exact absurd hd.symm hr
    | exact absurd (hd.imp Eq.symm Eq.symm) (by simpa using hr)
    | (rcases hd with rfl | rfl
       · first | exact absurd rfl hn | exact absurd rfl hr
       · first | exact absurd rfl hn | exact absurd rfl hr)

/-- **C67**, whether the operation returns or throws, in every state (also one an earlier exception left behind): spans refer to the same memory, and
the capacity is the same, unless the operation needs more elements than the capacity, or is one of those that replace the memory. -/
theorem C67_throws (h0 : 0 < n) {op : Op V} {d c : Nat} (hc : capacity d w = .ok c w) (hr : ¬ replaces d op) (hn : ¬ creates d op) (hf : FitsNow d c w op)
    {w' : World V} (he : (∃ o, exec env op w = .ok o w') ∨ exec env op w = .exn w') :
    capacity d w' = .ok c w' ∧ ∀ j b l, spanOf d j w = .ok (b, l) w → ∃ l', spanOf d j w' = .ok (b, l') w' := by
  by_cases hd : d ∈ changes op
  · cases hp : w.vecs d with
    | none => simp [capacity, bind, M.bind, get, hp] at hc
    | some p =>
      have hcp : c = capacityP p := by simpa [capacity, bind, M.bind, get, hp, pure, M.pure] using hc.symm
      obtain ⟨h1, h2⟩ := hf hd
      have hl : ∀ j, (p j).data.length + adds op ≤ c := fun j => h1 j (p j).buf _ (by simp [spanOf, bind, M.bind, get, hp, pure, M.pure])
      have key : ∃ p', w'.vecs d = some p' ∧ SameBufs p p' := by
        have := holds_exec (env := env) hr hn hd (Nat.le_trans (Nat.le_add_left _ _) (hl ⟨0, h0⟩)) h2 w p hp ⟨fun j => hcp ▸ capacityP_le p j, hl⟩
        rcases he with ⟨o, he⟩ | he
        · rw [he] at this; obtain ⟨p', a, b, -⟩ := this; exact ⟨p', a, b⟩
        · rw [he] at this; exact this
      obtain ⟨p', hp', hs⟩ := key
      refine ⟨by simp [capacity, bind, M.bind, get, hp', pure, M.pure, hs.capacity, hcp], fun j b l hb => ?_⟩
      simp only [spanOf, bind, M.bind, get, hp, hp', pure, M.pure, Res.ok.injEq, Prod.mk.injEq, and_true] at hb ⊢
      exact ⟨(p' j).data.length, by rw [(hs j).1, hb.1], rfl⟩
  · have := C67_others hd he
    exact ⟨this.1 c hc, fun j b l hb => ⟨l, this.2.2.2 j b l hb⟩⟩

/-- Operations, which may throw (the exceptions are caught), from one state to another; none of them replaces the memory of `d` or needs more than `c`. -/
inductive Mild (env : Env V) (d c : Nat) : World V → World V → Prop
  | none (u : World V) : Mild env d c u u
  | op {u u1 u2 : World V} (op : Op V) (h : Mild env d c u u1) (hr : ¬ replaces d op) (hn : ¬ creates d op) (hf : FitsNow d c u1 op)
      (he : (∃ o, exec env op u1 = .ok o u2) ∨ exec env op u1 = .exn u2) : Mild env d c u u2

/-- **C67**: the same for histories in which operations throw and the exceptions are caught, with any number of containers. -/
theorem C67_program_throws (h0 : 0 < n) {d c : Nat} (hc : capacity d w = .ok c w) {w' : World V} (h : Mild env d c w w') :
    capacity d w' = .ok c w' ∧ ∀ j b l, spanOf d j w = .ok (b, l) w → ∃ l', spanOf d j w' = .ok (b, l') w' := by
  induction h with
  | none => exact ⟨hc, fun j b l hb => ⟨l, hb⟩⟩
  | op op _ hr hn hf he ih =>
    obtain ⟨h1, h2⟩ := C67_throws h0 ih.1 hr hn hf he
    refine ⟨h1, fun j b l hb => ?_⟩
    obtain ⟨l', hb'⟩ := ih.2 j b l hb
    exact h2 j b l' hb'

/-- A container with capacity 3. The first `push_back` throws after one field has the element, the second one adds one to both fields, which remain of
different sizes; the spans refer to the same memory all the time. -/
def exThrow : Env ExV := exEnv fun t => t == 3
def exW : World ExV := ⟨upd (fun _ => none) 0 (some fun _ => ⟨[], 3, 0⟩), 2⟩

example : capacity 0 exW = .ok 3 exW ∧ ∃ w1 w2, Mild exThrow 0 3 exW w2 ∧ exec exThrow (.pushBack 0 (exRec 1 "a")) exW = .exn w1 ∧
    (∃ o, exec exThrow (.pushBack 0 (exRec 2 "b")) w1 = .ok o w2) ∧ (∃ x, spanOf 0 0 w2 = .ok (0, 2) x) ∧ ∃ x, spanOf 0 1 w2 = .ok (0, 1) x := by
  refine ⟨rfl, _, _, .op (.pushBack 0 (exRec 2 "b")) (.op (.pushBack 0 (exRec 1 "a")) (.none exW) id id (fun _ => ⟨fun j b l h => ?_, Nat.zero_le _⟩) (.inr rfl)) id id
    (fun _ => ⟨fun j b l h => ?_, Nat.zero_le _⟩) (.inl ⟨_, rfl⟩), rfl, ⟨_, rfl⟩, ⟨_, rfl⟩, ⟨_, rfl⟩⟩
  · match j with
    | 0 => cases h; decide
    | 1 => cases h; decide
  · match j with
    | 0 => cases h; decide
    | 1 => cases h; decide

end AnyAny.Dpv
