import Verif.Props.Dpv
/-
C67 in histories that use many containers: operations on other containers, and operations that only read a container, leave its memory as it is.
-/
namespace AnyAny.Dpv

variable {n : Nat} {V : Fin n → Type} {env : Env V} {w : World V} {S : SVecs V}

/-- The containers that an operation is applied to as something that may change. -/
def changes : Op V → List Nat
  | .moveCtor d s | .moveAssign d s | .swap d s | .swapRef d _ s _ => [d, s]
  | .assignCount d tmp _ _ | .assignRange d tmp _ _ => [d, tmp]
  | .defaultCtor d | .countValueCtor d _ _ | .countCtor d _ | .rangeCtor d _ _ | .copyCtor d _ | .dtor d | .copyAssign d _ | .emplace d _ _
  | .emplaceBack d _ | .pushBack d _ | .erase d _ | .insertVal d _ _ | .insertCount d _ _ _ | .insertRange d _ _ _ | .clear d | .popBack d
  | .reserve d _ | .resize d _ | .resizeVal d _ _ | .shrinkToFit d | .assignElem d _ _ | .assignRef d _ _ _ | .iterMove d _ | .setField d _ _ _ => [d]

/-- Operations after which the container `d` has other memory even if its capacity suffices, or is gone: as for `std::vector`, assignment, `swap`, moves
from it, `shrink_to_fit` and the destructor. -/
def replaces (d : Nat) : Op V → Prop
  | .dtor a | .copyAssign a _ | .assignCount a _ _ _ | .assignRange a _ _ _ | .shrinkToFit a => a = d
  | .moveCtor _ s => s = d
  | .moveAssign a s | .swap a s => a = d ∨ s = d
  | _ => False

/-- The code leaves the container `d` as it is, whether it returns or throws. -/
def Leaves {α} (d : Nat) (m : M V α) : Prop := ∀ w, match m w with
  | .ok _ w' | .exn w' => w'.vecs d = w.vecs d
  | .ub => True

theorem Leaves.seq {α β} {d : Nat} {m : M V α} {f : α → M V β} (h : Leaves d m) (hf : ∀ a, Leaves d (f a)) : Leaves d (m >>= f) := by
  intro w
  rw [bind_apply]
  have h1 := h w
  cases hm : m w with
  | ok a w1 =>
    rw [hm] at h1
    have h2 := hf a w1
    dsimp only at h1 ⊢
    cases hf : f a w1 with
    | ok b w2 => rw [hf] at h2; exact h2.trans h1
    | exn w2 => rw [hf] at h2; exact h2.trans h1
    | ub => trivial
  | exn w1 => rw [hm] at h1; exact h1
  | ub => trivial

theorem Leaves.pure {α} {d : Nat} (a : α) : Leaves d (Pure.pure a : M V α) := fun _ => rfl
theorem Leaves.ub {α} {d : Nat} : Leaves d (ub : M V α) := fun _ => trivial

theorem Leaves.ite {α} {d : Nat} {c : Prop} [Decidable c] {a b : M V α} (ha : Leaves d a) (hb : Leaves d b) : Leaves d (if c then a else b) := by
  split <;> assumption

theorem Leaves.get {d e : Nat} : Leaves d (get e : M V _) := by
  intro w; unfold Dpv.get; cases w.vecs e <;> simp

theorem upd_off {α} (f : Nat → Option α) {k x : Nat} (v) (h : x ≠ k) : upd f k v x = f x := by simp [upd, h]

theorem Leaves.put {d e : Nat} (h : d ≠ e) (p : Parts V) : Leaves d (put e p) := fun w => by simp [Dpv.put, upd_off _ _ h]

theorem Leaves.apply {d e : Nat} (h : d ≠ e) {f left} : Leaves d (apply env e f left : M V Unit) := by
  intro w
  unfold Dpv.apply
  cases w.vecs e with
  | none => trivial
  | some p =>
    dsimp only
    by_cases hb : (forCols env f left (List.finRange n) p w.tick).2.2 = true
    · rw [if_pos hb]; exact upd_off _ _ h
    · rw [if_neg hb]; exact upd_off _ _ h

theorem Leaves.applyNoexcept {d e : Nat} (h : d ≠ e) {f : (j : Fin n) → Col (V j) → Col (V j)} : Leaves d (applyNoexcept e f) :=
  Leaves.get.seq fun _ => .put h _

theorem Leaves.construct {d e : Nat} (h : d ≠ e) {mk} : Leaves d (construct env e mk : M V Unit) := by
  intro w
  unfold Dpv.construct
  dsimp only
  split
  · rename_i he; split at he <;> cases he; exact upd_off _ _ h
  · rename_i he; split at he <;> cases he; rfl
  · trivial

theorem Leaves.dtor {d e : Nat} (h : d ≠ e) : Leaves d (dtor e : M V Unit) := fun _ => upd_off _ _ h
theorem Leaves.defaultCtor {d e : Nat} (h : d ≠ e) : Leaves d (defaultCtor e : M V Unit) := fun _ => upd_off _ _ h

theorem Leaves.moveAssign {d e s : Nat} (h : d ≠ e) (hs : d ≠ s) : Leaves d (moveAssign e s : M V Unit) := by
  intro w
  unfold Dpv.moveAssign
  cases w.vecs e with
  | none => trivial
  | some _ =>
    cases w.vecs s with
    | none => trivial
    | some p =>
      dsimp only
      by_cases hes : e = s
      · rw [if_pos hes]
      · rw [if_neg hes]; show upd (upd _ _ _) _ _ d = _; rw [upd_off _ _ h, upd_off _ _ hs]

theorem Leaves.size {d e : Nat} : Leaves d (size e : M V Nat) := Leaves.get.seq fun _ => .pure _
theorem Leaves.iteratorAt {d e i : Nat} : Leaves d (iteratorAt e i : M V Unit) := Leaves.size.seq fun _ => .ite (.pure _) .ub
theorem Leaves.proxyAt {d e i : Nat} : Leaves d (proxyAt e i : M V _) := Leaves.get.seq fun _ => .ite (.pure _) .ub

theorem Leaves.emplace {d e i : Nat} (h : d ≠ e) {v : Rec V} : Leaves d (emplace env e i v) :=
  Leaves.iteratorAt.seq fun _ => (Leaves.get.seq fun _ => .ite (.pure _) .ub : Leaves d (positions e i)).seq (fun _ => .apply h)
    |>.seq fun _ => Leaves.iteratorAt.seq fun _ => .pure _

theorem Leaves.insertCount {d e i k : Nat} (h : d ≠ e) {v : Rec V} : Leaves d (insertCount env e i k v) :=
  Leaves.iteratorAt.seq fun _ => (Leaves.get.seq fun _ => .ite (.pure _) .ub : Leaves d (positions e i)).seq (fun _ => .apply h)
    |>.seq fun _ => Leaves.iteratorAt.seq fun _ => .pure _

theorem Leaves.emplaceBackAll {d e : Nat} (h : d ≠ e) : ∀ vs : List (Rec V), Leaves d (emplaceBackAll env e vs)
  | [] => .pure _
  | _ :: vs => (Leaves.apply h : Leaves d (emplaceBack env e _)).seq fun _ => emplaceBackAll h vs

theorem Leaves.emplaceAll {d e : Nat} (h : d ≠ e) : ∀ (i : Nat) (vs : List (Rec V)), Leaves d (emplaceAll env e i vs)
  | _, [] => .pure _
  | _, _ :: vs => (Leaves.emplace h).seq fun _ => emplaceAll h _ vs

theorem Leaves.insertRange {d e i : Nat} (h : d ≠ e) {vs : List (Rec V)} {ra : Bool} : Leaves d (insertRange env e i vs ra) := by
  refine Leaves.iteratorAt.seq fun _ => Leaves.size.seq fun _ => .ite ?_ ?_
  · exact (Leaves.emplaceBackAll h vs).seq fun _ => Leaves.iteratorAt.seq fun _ => .pure _
  · refine Leaves.seq (.ite (.apply h) (.pure _)) fun _ => Leaves.seq ?_ fun _ => Leaves.iteratorAt.seq fun _ => .pure _
    cases vs with
    | nil => exact .pure _
    | cons v vs => exact (Leaves.emplace h).seq fun _ => .emplaceAll h _ vs

theorem Leaves.rangeCtor {d e : Nat} (h : d ≠ e) {vs : List (Rec V)} {ra : Bool} : Leaves d (rangeCtor env e vs ra) := by
  intro w
  have := (Leaves.defaultCtor h).seq (fun _ => (Leaves.insertRange h : Leaves d (Dpv.insertRange env e 0 vs ra))) w
  unfold Dpv.rangeCtor
  revert this
  cases ((do Dpv.defaultCtor e; Dpv.insertRange env e 0 vs ra : M V Nat) w) with
  | ok _ _ => exact id
  | exn _ => exact fun _ => rfl
  | ub => exact id

theorem Leaves.swapFields {d a i b k : Nat} (h : d ≠ a) (h' : d ≠ b) : ∀ js : List (Fin n), Leaves d (swapFields a i b k js : M V Unit)
  | [] => .pure _
  | j :: js => by
    refine Leaves.seq (Leaves.get.seq fun p => Leaves.get.seq fun q => ?_) fun _ => swapFields h h' js
    split
    · exact (Leaves.put h _).seq fun _ => Leaves.get.seq fun _ => .put h' _
    · exact .ub

theorem leaves_exec {op : Op V} {d : Nat} (h : d ∉ changes op) : Leaves d (exec env op) := by
  cases op <;> simp only [changes, List.mem_cons, List.not_mem_nil, or_false, not_or] at h
  case defaultCtor a => exact (Leaves.defaultCtor h).seq fun _ => .pure _
  case countValueCtor a k v => exact (Leaves.construct h).seq fun _ => .pure _
  case countCtor a k => exact (Leaves.construct h).seq fun _ => .pure _
  case rangeCtor a vs ra => exact (Leaves.rangeCtor h).seq fun _ => .pure _
  case copyCtor a s => exact (Leaves.get.seq fun _ => .construct h).seq fun _ => .pure _
  case moveCtor a s =>
    refine Leaves.seq (m := moveCtor a s) (fun w => ?_) fun _ => .pure _
    unfold moveCtor
    cases w.vecs s with
    | none => trivial
    | some p => show upd (upd _ _ _) _ _ d = _; rw [upd_off _ _ h.1, upd_off _ _ h.2]
  case dtor a => exact (Leaves.dtor h).seq fun _ => .pure _
  case copyAssign a s => exact (Leaves.get.seq fun _ => .apply h).seq fun _ => .pure _
  case moveAssign a s => exact (Leaves.moveAssign h.1 h.2).seq fun _ => .pure _
  case emplace a i v => exact (Leaves.emplace h).seq fun _ => .pure _
  case emplaceBack a v => exact (Leaves.apply h : Leaves d (emplaceBack env a v)).seq fun _ => .pure _
  case pushBack a v => exact (Leaves.apply h : Leaves d (pushBack env a v)).seq fun _ => .pure _
  case erase a i =>
    exact (Leaves.get.seq fun _ => .ite ((Leaves.apply h).seq fun _ => Leaves.iteratorAt.seq fun _ => .pure _) .ub : Leaves d (erase env a i)).seq
      fun _ => .pure _
  case insertVal a i v => exact (Leaves.emplace h : Leaves d (insertVal env a i v)).seq fun _ => .pure _
  case insertCount a i k v => exact (Leaves.insertCount h).seq fun _ => .pure _
  case insertRange a i vs ra => exact (Leaves.insertRange h).seq fun _ => .pure _
  case assignCount a tmp k v =>
    exact ((Leaves.construct h.2 : Leaves d (countValueCtor env tmp k v)).seq fun _ => (Leaves.moveAssign h.1 h.2).seq fun _ => .dtor h.2 :
      Leaves d (assignCount env a tmp k v)).seq fun _ => .pure _
  case assignRange a tmp vs ra =>
    exact ((Leaves.rangeCtor h.2).seq fun _ => (Leaves.moveAssign h.1 h.2).seq fun _ => .dtor h.2 : Leaves d (assignRange env a tmp vs ra)).seq
      fun _ => .pure _
  case clear a => exact (Leaves.applyNoexcept h : Leaves d (clear a)).seq fun _ => .pure _
  case popBack a => exact (Leaves.get.seq fun _ => .ite (.applyNoexcept h) .ub : Leaves d (popBack a)).seq fun _ => .pure _
  case reserve a k => exact (Leaves.apply h : Leaves d (reserve env a k)).seq fun _ => .pure _
  case resize a k => exact (Leaves.apply h : Leaves d (resize env a k)).seq fun _ => .pure _
  case resizeVal a k v => exact (Leaves.apply h : Leaves d (resizeVal env a k v)).seq fun _ => .pure _
  case shrinkToFit a => exact (Leaves.apply h : Leaves d (shrinkToFit env a)).seq fun _ => .pure _
  case swap a b =>
    refine Leaves.seq (m := swap a b) (fun w => ?_) fun _ => .pure _
    unfold swap
    cases w.vecs a with
    | none => trivial
    | some p =>
      cases w.vecs b with
      | none => trivial
      | some q => show upd (upd _ _ _) _ _ d = _; rw [upd_off _ _ h.2, upd_off _ _ h.1]
  case assignElem a i v => exact (Leaves.proxyAt.seq fun _ => .apply h : Leaves d (assignElem env a i v)).seq fun _ => .pure _
  case assignRef a i e k =>
    exact (Leaves.proxyAt.seq fun _ => Leaves.proxyAt.seq fun _ => .apply h : Leaves d (assignRef env a i e k)).seq fun _ => .pure _
  case swapRef a i b k =>
    exact (Leaves.proxyAt.seq fun _ => Leaves.proxyAt.seq fun _ => .swapFields h.1 h.2 _ : Leaves d (swapRef a i b k)).seq fun _ => .pure _
  case iterMove a i =>
    refine Leaves.seq (m := iterMove env a i) (Leaves.proxyAt.seq fun p => ?_) fun _ => .pure _
    split
    · exact .ub
    · exact (Leaves.applyNoexcept h).seq fun _ => .pure _
  case setField a i j x => exact (Leaves.get.seq fun _ => .ite (.put h _) .ub : Leaves d (setField a i j x)).seq fun _ => .pure _

/-- The container `d`, as seen through its members: the same elements, capacity and memory. -/
def SameSeen (d : Nat) (w w' : World V) : Prop :=
  (∀ c, capacity d w = .ok c w → capacity d w' = .ok c w') ∧ (∀ s, size d w = .ok s w → size d w' = .ok s w') ∧
  (∀ i r, elem d i w = .ok r w → elem d i w' = .ok r w') ∧ ∀ j b l, spanOf d j w = .ok (b, l) w → spanOf d j w' = .ok (b, l) w'

/-- **C67**: an operation leaves the containers that it is not applied to, or that it only reads (the source of a copy, the right-hand side of an assignment),
as they are: elements, capacity, and the memory spans refer to; also if it throws. In every state, after any history. -/
theorem C67_others {op : Op V} {d : Nat} (h : d ∉ changes op) {w' : World V}
    (he : (∃ out, exec env op w = .ok out w') ∨ exec env op w = .exn w') : SameSeen d w w' := by
  have hv : w'.vecs d = w.vecs d := by
    have := leaves_exec (env := env) h w
    rcases he with ⟨out, he⟩ | he <;> rw [he] at this <;> exact this
  refine ⟨fun c h => ?_, fun s h => ?_, fun i r h => ?_, fun j b l h => ?_⟩
  all_goals
    simp only [capacity, size, elem, spanOf, bind, M.bind, get, hv, pure, M.pure] at h ⊢
    cases hp : w.vecs d with
    | none => rw [hp] at h; cases h
    | some p =>
      rw [hp] at h
      first
        | (cases h; rfl)
        | (dsimp only at h ⊢
           split at h
           · rename_i hi; rw [if_pos hi]
             cases hr : readRec p i with
             | none => rw [hr] at h; cases h
             | some r' => rw [hr] at h; cases h; rfl
           · cases h)

/-- The code keeps the buffers of the container `d`, if it returns. -/
def KeepsBufs {α} (d : Nat) (m : M V α) : Prop := ∀ w p, w.vecs d = some p → ∀ a w', m w = .ok a w' → ∃ p', w'.vecs d = some p' ∧ SameBufs p p'

theorem KeepsBufs.seq {α β} {d : Nat} {m : M V α} {f : α → M V β} (h : KeepsBufs d m) (hf : ∀ a, KeepsBufs d (f a)) : KeepsBufs d (m >>= f) := by
  intro w p hp a w' he
  rw [bind_apply] at he
  cases hm : m w with
  | ok b w1 =>
    rw [hm] at he
    obtain ⟨p1, h1, h2⟩ := h w p hp b w1 hm
    obtain ⟨p2, h3, h4⟩ := hf b w1 p1 h1 a w' he
    exact ⟨p2, h3, h2.trans h4⟩
  | exn _ => rw [hm] at he; cases he
  | ub => rw [hm] at he; cases he

theorem KeepsBufs.of_leaves {α} {d : Nat} {m : M V α} (h : Leaves d m) : KeepsBufs d m := by
  intro w p hp a w' he
  have := h w
  rw [he] at this
  exact ⟨p, this.trans hp, .refl p⟩

theorem sameBufs_set (p : Parts V) (j : Fin n) (i : Nat) (x : V j) : SameBufs p (setP p j (Col.set i x (p j))) := by
  intro k
  by_cases h : k = j
  · subst h; simp [setP, Col.set]
  · simp [setP, h]

theorem keeps_swapField {d a i b k : Nat} {j : Fin n} : KeepsBufs d (swapField a i b k j : M V Unit) := by
  intro w p hp u w' he
  simp only [swapField, bind, M.bind, get] at he
  cases ha : w.vecs a with
  | none => rw [ha] at he; cases he
  | some pa =>
    cases hb : w.vecs b with
    | none => rw [ha] at he; dsimp only at he; rw [hb] at he; cases he
    | some pb =>
      rw [ha] at he
      dsimp only at he
      rw [hb] at he
      dsimp only at he
      rcases hx : (pa j).data[i]? with _ | x <;> rcases hy : (pb j).data[k]? with _ | y <;> rw [hx, hy] at he
      case some.some =>
        simp only [M.bind, put, get] at he
        have step : ∀ {w1 : World V} {e : Nat} {q : Parts V} {l : Nat} {z : V j}, w1.vecs e = some q → ∀ {r}, w1.vecs d = some r →
            ∃ r', upd w1.vecs e (some (setP q j (Col.set l z (q j)))) d = some r' ∧ SameBufs r r' := by
          intro w1 e q l z hq r hr
          by_cases hde : d = e
          · subst hde
            rw [hq] at hr; cases hr
            exact ⟨_, upd_same _ _ _, sameBufs_set _ _ _ _⟩
          · exact ⟨r, by rw [upd_off _ _ hde]; exact hr, .refl r⟩
        obtain ⟨p1, h1, h2⟩ := step (l := i) (z := y) ha hp
        cases hb' : upd w.vecs a (some (setP pa j (Col.set i y (pa j)))) b with
        | none => rw [hb'] at he; cases he
        | some q' =>
          rw [hb'] at he
          cases he
          obtain ⟨p2, h3, h4⟩ := step (w1 := { w with vecs := upd w.vecs a (some (setP pa j (Col.set i y (pa j)))) }) (l := k) (z := x) hb' h1
          exact ⟨p2, h3, h2.trans h4⟩
      all_goals cases he

theorem keeps_swapFields {d a i b k : Nat} : ∀ js : List (Fin n), KeepsBufs d (swapFields a i b k js : M V Unit)
  | [] => .of_leaves (.pure _)
  | _ :: js => keeps_swapField.seq fun _ => keeps_swapFields js

/-- Swaps of elements keep all memory where it is. -/
theorem keeps_swapRef {d a i b k : Nat} : KeepsBufs d (exec env (.swapRef a i b k)) :=
  ((KeepsBufs.of_leaves .proxyAt).seq fun _ => (KeepsBufs.of_leaves .proxyAt).seq fun _ => keeps_swapFields _ : KeepsBufs d (swapRef a i b k)).seq
    fun _ => .of_leaves (.pure _)

/-- If the operation works in the container `d`, the resulting size, or what is asked of `reserve`, is at most `c`. -/
def Fits (env : Env V) (S : SVecs V) (d c : Nat) (op : Op V) : Prop :=
  (d ∈ changes op → ∀ ys, specStep env S op d = some ys → ys.length ≤ c) ∧ ∀ k, op = .reserve d k → k ≤ c

theorem specStep_length {op : Op V} {d : Nat} (h : inPlace op = some d) : d ∈ changes op := by
  cases op <;> simp only [inPlace, reduceCtorEq, Option.some.injEq] at h <;> simp [changes, h]

/-- **C67**, for all operations, on whatever containers: spans of a container refer to the same memory as before, and the capacity is the same, unless the
operation makes it larger than its capacity, or is one of those (assignment, `swap`, move, `shrink_to_fit`, destructor) that replace its memory. -/
theorem C67_operations (hn : 0 < n) (h : Reach env w S) {op : Op V} (L : Legal S op) {d c : Nat} (hc : capacity d w = .ok c w)
    (hr : ¬ replaces d op) (hf : Fits env S d c op) {o : Out V} {w' : World V} (he : exec env op w = .ok o w') :
    capacity d w' = .ok c w' ∧ ∀ j b l, spanOf d j w = .ok (b, l) w → ∃ l', spanOf d j w' = .ok (b, l') w' := by
  have hS : ∃ xs, S d = some xs := by
    cases hd : S d with
    | some xs => exact ⟨xs, rfl⟩
    | none => simp [capacity, bind, M.bind, get, (h.rep hn).none d hd] at hc
  obtain ⟨xs, hd⟩ := hS
  obtain ⟨p, hp, _⟩ := (h.rep hn).some d xs hd
  by_cases hi : inPlace op = some d
  · refine C67_spans hn h L hi hc ⟨fun e ys h1 h2 => ?_, fun e k h1 => ?_⟩ he
    · rw [hi] at h1; cases h1; exact hf.1 (specStep_length hi) ys h2
    · subst h1; cases hi; exact hf.2 k rfl
  by_cases ht : d ∈ changes op
  · have hk : KeepsBufs d (exec env op) := by
      cases op
      case swapRef => exact keeps_swapRef
      all_goals
        simp only [changes, List.mem_cons, List.not_mem_nil, or_false] at ht
        simp only [replaces, inPlace, reduceCtorEq, not_false_eq_true, Option.some.injEq] at hr hi
        simp only [Legal] at L
        first
          | exact absurd ht.symm hi
          | (subst ht; rw [hd] at L; cases L; done)
          | (subst ht; exact absurd rfl hr)
          | (subst ht; exact absurd (hd.symm.trans L.1) (by simp))
          | skip
      case moveCtor a s =>
        rcases ht with rfl | rfl
        · exact absurd (hd.symm.trans L.1) (by simp)
        · exact absurd rfl hr
      case moveAssign a s => exact absurd (ht.imp Eq.symm Eq.symm) hr
      case swap a s => exact absurd (ht.imp Eq.symm Eq.symm) hr
      case assignCount a tmp k v =>
        rcases ht with rfl | rfl
        · exact absurd rfl hr
        · exact absurd (hd.symm.trans L.2) (by simp)
      case assignRange a tmp vs ra =>
        rcases ht with rfl | rfl
        · exact absurd rfl hr
        · exact absurd (hd.symm.trans L.2) (by simp)
    obtain ⟨p', h1, h2⟩ := hk w p hp o w' he
    have hcp : c = capacityP p := by simpa [capacity, bind, M.bind, get, hp, pure, M.pure] using hc.symm
    refine ⟨by simp [capacity, bind, M.bind, get, h1, pure, M.pure, h2.capacity, hcp], fun j b l hb => ?_⟩
    simp only [spanOf, bind, M.bind, get, hp, h1, pure, M.pure, Res.ok.injEq, Prod.mk.injEq, and_true] at hb ⊢
    exact ⟨(p' j).data.length, by rw [(h2 j).1, hb.1], rfl⟩
  · have := C67_others (env := env) ht (.inl ⟨o, he⟩)
    exact ⟨this.1 c hc, fun j b l hb => ⟨l, this.2.2.2 j b l hb⟩⟩

/-- No operation of the history replaces the memory of `d` or makes it larger than `c`. The history may use any other containers. -/
def AllFit (env : Env V) (d c : Nat) : List (Op V) → SVecs V → Prop
  | [], _ => True
  | op :: ops, S => (¬ replaces d op ∧ Fits env S d c op) ∧ AllFit env d c ops (specStep env S op)

/-- **C67**: in a history with any number of containers, spans of `d` refer to the same memory as long as no operation needs more than the capacity of `d` or
replaces its memory. -/
theorem C67_program (hn : 0 < n) (ops : List (Op V)) (h : Reach env w S) (L : LegalAll env ops S) {d c : Nat} (hc : capacity d w = .ok c w)
    (hf : AllFit env d c ops S) {os : List (Out V)} {w' : World V} (he : runAll env ops w = .ok os w') :
    capacity d w' = .ok c w' ∧ ∀ j b l, spanOf d j w = .ok (b, l) w → ∃ l', spanOf d j w' = .ok (b, l') w' := by
  induction ops generalizing w S os with
  | nil =>
    simp only [runAll, Res.ok.injEq] at he
    obtain ⟨_, rfl⟩ := he
    exact ⟨hc, fun j b l hb => ⟨l, hb⟩⟩
  | cons op ops ih =>
    simp only [runAll] at he
    cases he1 : exec env op w with
    | exn w1 => rw [he1] at he; cases he
    | ub => rw [he1] at he; cases he
    | ok o w1 =>
      rw [he1] at he
      dsimp only at he
      cases he2 : runAll env ops w1 with
      | exn w2 => rw [he2] at he; cases he
      | ub => rw [he2] at he; cases he
      | ok os' w2 =>
        rw [he2] at he
        cases he
        obtain ⟨h1, h2⟩ := C67_operations hn h L.1 hc hf.1.1 hf.1.2 he1
        obtain ⟨h3, h4⟩ := ih (h.step L.1 L.2.1 he1) L.2.2 h1 hf.2 he2
        refine ⟨h3, fun j b l hb => ?_⟩
        obtain ⟨l', hb'⟩ := h2 j b l hb
        exact h4 j b l' hb'

/-- A container with capacity 3 and one with other elements: elements are added to the first within its capacity and swapped with those of the second, which is
copied, made larger than its capacity, and destroyed. -/
def exSpans : List (Op ExV) :=
  [.emplaceBack 0 (exRec 1 "a"), .countValueCtor 1 2 (exRec 7 "z"), .insertVal 0 0 (exRec 2 "b"), .swapRef 0 1 1 0, .copyCtor 2 0,
   .insertCount 1 0 9 (exRec 3 "c"), .assignRef 0 0 1 5, .swap 1 2, .dtor 1, .popBack 0]

example : AllFit (exEnv fun _ => false) 0 3 exSpans (upd (fun _ => none) 0 (some [])) := by
  refine ⟨⟨id, ?_, ?_⟩, ⟨id, ?_, ?_⟩, ⟨id, ?_, ?_⟩, ⟨id, ?_, ?_⟩, ⟨id, ?_, ?_⟩, ⟨id, ?_, ?_⟩, ⟨id, ?_, ?_⟩, ⟨by simp [replaces], ?_, ?_⟩,
    ⟨by simp [replaces], ?_, ?_⟩, ⟨id, ?_, ?_⟩, trivial⟩
  all_goals first
    | (intro k h; cases h; done)
    | (intro h; simp only [changes, List.mem_cons, List.not_mem_nil, or_false, Nat.reduceEqDiff, or_self] at h; done)
    | (intro _ ys h; cases h; decide)

example : LegalAll (exEnv fun _ => false) exSpans (upd (fun _ => none) 0 (some [])) := by
  refine ⟨rfl, fun h => (by cases h), rfl, fun h => (by cases h), ⟨_, rfl, by decide⟩, fun h => (by cases h), ⟨⟨_, rfl, by decide⟩, ⟨_, rfl, by decide⟩⟩,
    fun h => (by cases h), ⟨rfl, rfl⟩, fun h => (by cases h), ⟨_, rfl, by decide⟩, fun h => (by cases h), ⟨⟨_, rfl, by decide⟩, ⟨_, rfl, by decide⟩⟩,
    fun h => (by cases h), ⟨rfl, rfl⟩, fun h => (by cases h), rfl, fun h => (by cases h), ⟨[exRec 3 "c", exRec 7 "z"], rfl, by simp⟩, fun h => (by cases h), trivial⟩

end AnyAny.Dpv
