import Verif.Props.DpvSpans
import Verif.Props.DpvThrow
/-
C137: a data_parallel_vector an operation of which has thrown can be used again.

`runAll`, `specAll`, `LegalAll` (Props/Dpv.lean): histories of containers, the same histories of `std::vector<T>`, and their preconditions.
-/
namespace AnyAny.Dpv

variable {n : Nat} {V : Fin n → Type} {env : Env V} {w : World V} {S : SVecs V}

/-- From the state `w` on, the containers behave like the vectors `S`: whatever history follows, of any length, it has no undefined behaviour, and if it
completes, results, sizes, elements and spans are those of the vectors. -/
def LikeVectors (env : Env V) (w : World V) (S : SVecs V) : Prop :=
  ∀ ops, LegalAll env ops S → runAll env ops w ≠ .ub ∧ ∀ outs w', runAll env ops w = .ok outs w' → outs = (specAll env ops S).1 ∧
    ∀ d xs, (specAll env ops S).2 d = some xs → size d w' = .ok xs.length w' ∧ (∀ i (hi : i < xs.length), elem d i w' = .ok xs[i] w') ∧
      ∀ j, view d j w' = .ok (xs.map (· j)) w'

/-- The members that change a container in place, column after column, and its name: the operations of C52 and insertion of a range. -/
def throwsIn : Op V → Option Nat
  | .insertRange d _ _ _ => some d
  | op => resizing op

theorem Rep.observe (hn : 0 < n) (R : Rep w S) {d : Nat} {xs : List (Rec V)} (hd : S d = Option.some xs) :
    size d w = .ok xs.length w ∧ (∀ i (hi : i < xs.length), elem d i w = .ok xs[i] w) ∧ ∀ j, view d j w = .ok (xs.map (· j)) w := by
  obtain ⟨p, hp, g⟩ := R.some d xs hd
  refine ⟨by simp [size, bind, M.bind, get, hp, pure, M.pure, g.size hn], fun i hi => ?_, fun j => ?_⟩
  · have := elem_tri (E := fun _ => False) hn hp g hi
    unfold Tri at this
    cases he : elem d i w with
    | ok a w1 => rw [he] at this; rw [← this.2, this.1]
    | exn w1 => rw [he] at this; exact this.elim
    | ub => rw [he] at this; exact this.elim
  · simp [view, bind, M.bind, get, hp, pure, M.pure, g.data]

theorem Rep.like (hn : 0 < n) (R : Rep w S) : LikeVectors env w S := by
  intro ops
  induction ops generalizing w S with
  | nil =>
    intro _
    refine ⟨fun h => (by cases h), fun outs w' h => ?_⟩
    simp only [runAll, Res.ok.injEq] at h
    obtain ⟨rfl, rfl⟩ := h
    exact ⟨rfl, fun d xs hd => R.observe hn hd⟩
  | cons op ops ih =>
    rintro ⟨L, hu, Ls⟩
    have ht := exec_tri (env := env) hn R L hu
    unfold Tri at ht
    cases he : exec env op w with
    | ub => rw [he] at ht; exact ht.elim
    | exn w1 => exact ⟨fun h => by simp [runAll, he] at h, fun outs w' h => by simp [runAll, he] at h⟩
    | ok o w1 =>
      rw [he] at ht
      obtain ⟨rfl, R1⟩ := ht
      obtain ⟨h1, h2⟩ := ih R1 Ls
      cases hr : runAll env ops w1 with
      | ub => exact absurd hr h1
      | exn w2 => exact ⟨fun h => by simp [runAll, he, hr] at h, fun outs w' h => by simp [runAll, he, hr] at h⟩
      | ok os w2 =>
        refine ⟨fun h => by simp [runAll, he, hr] at h, fun outs w' h => ?_⟩
        simp only [runAll, he, hr, Res.ok.injEq] at h
        obtain ⟨rfl, rfl⟩ := h
        obtain ⟨e1, e2⟩ := h2 _ _ hr
        exact ⟨by simp [specAll, e1], fun d xs hd => e2 d xs hd⟩

/-- The container `d`, if it exists, exists afterwards, whether the code returns or throws. -/
def Stays {α} (d : Nat) (m : M V α) : Prop := ∀ w, (w.vecs d).isSome → match m w with
  | .ok _ w' | .exn w' => (w'.vecs d).isSome
  | .ub => True

theorem Stays.seq {α β} {d : Nat} {m : M V α} {f : α → M V β} (h : Stays d m) (hf : ∀ a, Stays d (f a)) : Stays d (m >>= f) := by
  intro w hw
  rw [bind_apply]
  have h1 := h w hw
  cases hm : m w with
  | ok a w1 => rw [hm] at h1; exact hf a w1 h1
  | exn w1 => rw [hm] at h1; exact h1
  | ub => trivial

theorem Stays.pure {α} {d : Nat} (a : α) : Stays d (Pure.pure a : M V α) := fun _ h => h
theorem Stays.ub {α} {d : Nat} : Stays d (ub : M V α) := fun _ _ => trivial
theorem Stays.ite {α} {d : Nat} {c : Prop} [Decidable c] {a b : M V α} (ha : Stays d a) (hb : Stays d b) : Stays d (if c then a else b) := by
  split <;> assumption

theorem Stays.get {d e : Nat} : Stays d (get e : M V _) := by
  intro w h; unfold Dpv.get; cases w.vecs e <;> simp [h]

theorem Stays.apply {d e : Nat} {f left} : Stays d (apply env e f left : M V Unit) := by
  intro w h
  unfold Dpv.apply
  cases w.vecs e with
  | none => trivial
  | some p =>
    dsimp only
    have hs : ∀ q : Parts V, (upd w.vecs e (some q) d).isSome := fun q => by
      unfold upd; split
      · rfl
      · exact h
    by_cases hb : (forCols env f left (List.finRange n) p w.tick).2.2 = true
    · rw [if_pos hb]; exact hs _
    · rw [if_neg hb]; exact hs _

theorem Stays.iteratorAt {d e i : Nat} : Stays d (iteratorAt e i : M V Unit) :=
  (Stays.get.seq fun _ => .pure _ : Stays d (size e : M V Nat)).seq fun _ => .ite (.pure _) .ub

theorem Stays.insertCols {d e i : Nat} {xs : (j : Fin n) → List (V j)} : Stays d (insertCols env e i xs) :=
  (Stays.get.seq fun _ => .ite (.pure _) .ub : Stays d (positions e i)).seq fun _ => .apply

theorem Stays.emplace {d e i : Nat} {v : Rec V} : Stays d (emplace env e i v) :=
  Stays.iteratorAt.seq fun _ => Stays.insertCols.seq fun _ => Stays.iteratorAt.seq fun _ => .pure _

theorem Stays.insertMiddle {d e : Nat} : ∀ (vs : List (Rec V)) (i : Nat), Stays d (insertMiddle env e i vs)
  | [], _ => .pure _
  | v :: vs, i => (Stays.emplace (v := v) (i := i)).seq fun _ => by rw [emplaceAll_eq]; exact Stays.insertMiddle vs _

theorem Stays.emplaceBackAll {d e : Nat} : ∀ vs : List (Rec V), Stays d (emplaceBackAll env e vs)
  | [] => .pure _
  | v :: vs => (Stays.apply : Stays d (emplaceBack env e v)).seq fun _ => Stays.emplaceBackAll vs

theorem stays_exec {op : Op V} {d : Nat} (h : throwsIn op = some d) : Stays d (exec env op) := by
  cases op with
  | emplaceBack _ _ => exact (Stays.apply : Stays d (emplaceBack env _ _)).seq fun _ => .pure _
  | pushBack _ _ => exact (Stays.apply : Stays d (pushBack env _ _)).seq fun _ => .pure _
  | emplace _ _ _ => exact Stays.emplace.seq fun _ => .pure _
  | insertVal _ _ _ => exact (Stays.emplace : Stays d (insertVal env _ _ _)).seq fun _ => .pure _
  | insertCount _ _ _ _ =>
    exact (Stays.iteratorAt.seq fun _ => Stays.insertCols.seq fun _ => Stays.iteratorAt.seq fun _ => .pure _ : Stays d (insertCount env _ _ _ _)).seq fun _ => .pure _
  | erase _ _ =>
    exact (Stays.get.seq fun _ => .ite (Stays.apply.seq fun _ => Stays.iteratorAt.seq fun _ => .pure _) .ub : Stays d (erase env _ _)).seq fun _ => .pure _
  | resize _ _ => exact (Stays.apply : Stays d (resize env _ _)).seq fun _ => .pure _
  | resizeVal _ _ _ => exact (Stays.apply : Stays d (resizeVal env _ _ _)).seq fun _ => .pure _
  | copyAssign _ _ => exact (Stays.get.seq fun _ => .apply : Stays d (copyAssign env _ _)).seq fun _ => .pure _
  | insertRange e i vs ra =>
    refine Stays.seq (m := insertRange env e i vs ra) ?_ fun _ => .pure _
    refine Stays.iteratorAt.seq fun _ => (Stays.get.seq fun _ => .pure _ : Stays d (size e : M V Nat)).seq fun _ => .ite ?_ ?_
    · exact (Stays.emplaceBackAll vs).seq fun _ => Stays.iteratorAt.seq fun _ => .pure _
    · exact (Stays.ite .apply (.pure _) : Stays d (reserveFor env _ _ _)).seq fun _ => (Stays.insertMiddle vs i).seq fun _ => Stays.iteratorAt.seq fun _ => .pure _
  | _ => cases h

/-- After an exception: the other containers as before, the container itself exists. -/
theorem after_throw (R : Rep w S) {op : Op V} {d : Nat} (hop : throwsIn op = some d) (hd : (S d).isSome) {w' : World V}
    (he : exec env op w = .exn w') : (∀ e, e ≠ d → w'.vecs e = w.vecs e) ∧ (w'.vecs d).isSome := by
  refine ⟨fun e hne => ?_, ?_⟩
  · have hc : e ∉ changes op := by
      cases op <;> simp_all [throwsIn, resizing, changes]
    have := leaves_exec (env := env) hc w
    rw [he] at this; exact this
  · obtain ⟨xs, hxs⟩ := Option.isSome_iff_exists.1 hd
    obtain ⟨p, hp, _⟩ := R.some d xs hxs
    have := stays_exec (env := env) hop w (by rw [hp]; rfl)
    rw [he] at this; exact this

theorem rep_after_clear (R : Rep w S) {op : Op V} {d : Nat} (hop : throwsIn op = some d) (hd : (S d).isSome) {w' : World V}
    (he : exec env op w = .exn w') :
    ∃ w'', exec env (.clear d) w' = .ok .unit w'' ∧ Rep w'' (upd S d (some [])) := by
  obtain ⟨h1, h2⟩ := after_throw R hop hd he
  obtain ⟨q, hq⟩ := Option.isSome_iff_exists.1 h2
  refine ⟨⟨upd w'.vecs d (some fun j => (q j).clear), w'.tick⟩, ?_, ⟨fun e xs hxs => ?_, fun e hs => ?_⟩⟩
  · show (applyNoexcept d (fun _ c => c.clear) >>= fun _ => Pure.pure Out.unit) w' = _
    simp [applyNoexcept, bind, M.bind, get, hq, put, pure, M.pure]
  · by_cases hc : e = d
    · subst hc
      rw [upd_same] at hxs; cases hxs
      exact ⟨_, upd_same _ _ _, ⟨fun j => by simp [Col.clear], fun j => by simp [Col.clear]⟩⟩
    · rw [upd_off _ _ hc] at hxs
      obtain ⟨p, hp, g⟩ := R.some e xs hxs
      exact ⟨p, by show upd _ _ _ _ = _; rw [upd_off _ _ hc, h1 e hc, hp], g⟩
  · by_cases hc : e = d
    · subst hc; rw [upd_same] at hs; cases hs
    · rw [upd_off _ _ hc] at hs
      show upd _ _ _ _ = _
      rw [upd_off _ _ hc, h1 e hc]; exact R.none e hs

theorem rep_after_destroy (R : Rep w S) {op : Op V} {d : Nat} (hop : throwsIn op = some d) (hd : (S d).isSome) {w' : World V}
    (he : exec env op w = .exn w') :
    ∃ w'', exec env (.dtor d) w' = .ok .unit w'' ∧ Rep w'' (upd S d none) := by
  obtain ⟨h1, _⟩ := after_throw R hop hd he
  refine ⟨{ w' with vecs := upd w'.vecs d none }, rfl, ⟨fun e xs hxs => ?_, fun e hs => ?_⟩⟩
  · by_cases hc : e = d
    · subst hc; rw [upd_same] at hxs; cases hxs
    · rw [upd_off _ _ hc] at hxs
      obtain ⟨p, hp, g⟩ := R.some e xs hxs
      exact ⟨p, by show upd _ _ _ _ = _; rw [upd_off _ _ hc, h1 e hc, hp], g⟩
  · by_cases hc : e = d
    · subst hc; exact upd_same _ _ _
    · rw [upd_off _ _ hc] at hs
      show upd _ _ _ _ = _
      rw [upd_off _ _ hc, h1 e hc]; exact R.none e hs

theorem rep_after_move_assign (R : Rep w S) {op : Op V} {d : Nat} (hop : throwsIn op = some d) (hd : (S d).isSome) {w' : World V}
    (he : exec env op w = .exn w') {s : Nat} {ys : List (Rec V)} (hs : S s = some ys) (hne : s ≠ d) :
    ∃ w'', exec env (.moveAssign d s) w' = .ok .unit w'' ∧ Rep w'' (upd (upd S s (some [])) d (some ys)) := by
  obtain ⟨h1, h2⟩ := after_throw R hop hd he
  obtain ⟨q, hq⟩ := Option.isSome_iff_exists.1 h2
  obtain ⟨p, hp, gp⟩ := R.some s ys hs
  have hp' : w'.vecs s = some p := by rw [h1 s hne, hp]
  refine ⟨{ w' with vecs := upd (upd w'.vecs s (some fun _ => ⟨[], 0, w'.tick⟩)) d (some p) }, ?_, ⟨fun e xs hxs => ?_, fun e hs' => ?_⟩⟩
  · show (moveAssign d s >>= fun _ => Pure.pure Out.unit) w' = _
    simp [moveAssign, bind, M.bind, hq, hp', Ne.symm hne, pure, M.pure]
  · by_cases hc : e = d
    · subst hc
      rw [upd_same] at hxs; cases hxs
      exact ⟨p, upd_same _ _ _, gp⟩
    · rw [upd_off _ _ hc] at hxs
      by_cases hc' : e = s
      · subst hc'
        rw [upd_same] at hxs; cases hxs
        exact ⟨_, by show upd _ _ _ _ = _; rw [upd_off _ _ hc, upd_same], ⟨fun j => rfl, fun j => Nat.le_refl _⟩⟩
      · rw [upd_off _ _ hc'] at hxs
        obtain ⟨p', hp', g⟩ := R.some e xs hxs
        exact ⟨p', by show upd _ _ _ _ = _; rw [upd_off _ _ hc, upd_off _ _ hc', h1 e hc, hp'], g⟩
  · by_cases hc : e = d
    · subst hc; rw [upd_same] at hs'; cases hs'
    · rw [upd_off _ _ hc] at hs'
      by_cases hc' : e = s
      · subst hc'; rw [upd_same] at hs'; cases hs'
      · rw [upd_off _ _ hc'] at hs'
        show upd _ _ _ _ = _
        rw [upd_off _ _ hc, upd_off _ _ hc', h1 e hc]; exact R.none e hs'

/-- **C137**: an operation that changes a container in place has thrown, in any field and whatever it left. `clear()` completes, and from then on the
container behaves like an empty vector, and all others as if nothing had happened. -/
theorem C137_clear (hn : 0 < n) (h : Reach env w S) {op : Op V} {d : Nat} (hop : throwsIn op = some d) (hd : (S d).isSome) {w' : World V}
    (he : exec env op w = .exn w') :
    ∃ w'', exec env (.clear d) w' = .ok .unit w'' ∧ LikeVectors env w'' (upd S d (some [])) := by
  obtain ⟨w'', e, R⟩ := rep_after_clear (h.rep hn) hop hd he
  exact ⟨w'', e, R.like hn⟩

/-- **C137**: the same for the destructor: it completes, and all other containers behave as if nothing had happened. -/
theorem C137_destroy (hn : 0 < n) (h : Reach env w S) {op : Op V} {d : Nat} (hop : throwsIn op = some d) (hd : (S d).isSome) {w' : World V}
    (he : exec env op w = .exn w') :
    ∃ w'', exec env (.dtor d) w' = .ok .unit w'' ∧ LikeVectors env w'' (upd S d none) := by
  obtain ⟨w'', e, R⟩ := rep_after_destroy (h.rep hn) hop hd he
  exact ⟨w'', e, R.like hn⟩

/-- **C137**: the same for move assignment from another container: the container has its elements, the other one is empty. -/
theorem C137_move_assign (hn : 0 < n) (h : Reach env w S) {op : Op V} {d : Nat} (hop : throwsIn op = some d) (hd : (S d).isSome) {w' : World V}
    (he : exec env op w = .exn w') {s : Nat} {ys : List (Rec V)} (hs : S s = some ys) (hne : s ≠ d) :
    ∃ w'', exec env (.moveAssign d s) w' = .ok .unit w'' ∧ LikeVectors env w'' (upd (upd S s (some [])) d (some ys)) := by
  obtain ⟨w'', e, R⟩ := rep_after_move_assign (h.rep hn) hop hd he hs hne
  exact ⟨w'', e, R.like hn⟩

/-- A container gets rows, the others stay as they were. -/
theorem rep_assigned (R : Rep w S) {d : Nat} {w' w'' : World V} (h1 : ∀ e, e ≠ d → w'.vecs e = w.vecs e) {p : Parts V} {ys : List (Rec V)}
    (hv : w''.vecs = upd w'.vecs d (some p)) (g : Good p ys) : Rep w'' (upd S d (some ys)) := by
  refine ⟨fun e xs hxs => ?_, fun e hs => ?_⟩
  · by_cases hc : e = d
    · subst hc
      rw [upd_same] at hxs; cases hxs
      exact ⟨p, by rw [hv, upd_same], g⟩
    · rw [upd_off _ _ hc] at hxs
      obtain ⟨q, hq, gq⟩ := R.some e xs hxs
      exact ⟨q, by rw [hv, upd_off _ _ hc, h1 e hc, hq], gq⟩
  · by_cases hc : e = d
    · subst hc; rw [upd_same] at hs; cases hs
    · rw [upd_off _ _ hc] at hs
      rw [hv, upd_off _ _ hc, h1 e hc]; exact R.none e hs

private theorem of_tri {m : M V Unit} {w : World V} {Q : World V → Prop} {E : World V → Prop} (h : Tri m w (fun _ w' => Q w') E) :
    (do m; pure Out.unit : M V (Out V)) w ≠ .ub ∧ ∀ o w', (do m; pure Out.unit : M V (Out V)) w = .ok o w' → Q w' := by
  unfold Tri at h
  rw [bind_apply]
  cases hm : m w with
  | ok a w1 =>
    rw [hm] at h
    refine ⟨fun e => (by cases e), fun o w' e => ?_⟩
    cases e; exact h
  | exn w1 => exact ⟨fun e => (by cases e), fun o w' e => (by cases e)⟩
  | ub => rw [hm] at h; exact h.elim

/-- **C137**: after such an exception `assign(count, value)` has no undefined behaviour, and if it completes, the container has these elements. -/
theorem C137_assign_count (hn : 0 < n) (h : Reach env w S) {op : Op V} {d : Nat} (hop : throwsIn op = some d) (hd : (S d).isSome) {w' : World V}
    (he : exec env op w = .exn w') {tmp : Nat} (ht : S tmp = none) (k : Nat) (v : Rec V) :
    exec env (.assignCount d tmp k v) w' ≠ .ub ∧
      ∀ o w'', exec env (.assignCount d tmp k v) w' = .ok o w'' → LikeVectors env w'' (upd S d (some (List.replicate k v))) := by
  have R := h.rep hn
  obtain ⟨h1, h2⟩ := after_throw R hop hd he
  obtain ⟨q, hq⟩ := Option.isSome_iff_exists.1 h2
  have hne : tmp ≠ d := fun e => by rw [e] at ht; rw [ht] at hd; cases hd
  have hT : w'.vecs tmp = none := by rw [h1 tmp hne]; exact R.none tmp ht
  have := of_tri (assignFrom_tri hq hT (countValueCtor_tri (env := env) k v))
  exact ⟨this.1, fun o w'' e => (rep_assigned R h1 (this.2 o w'' e).choose_spec.1 (this.2 o w'' e).choose_spec.2).like hn⟩

/-- **C137**: the same for `assign` of a range or an initializer list. -/
theorem C137_assign_range (hn : 0 < n) (h : Reach env w S) {op : Op V} {d : Nat} (hop : throwsIn op = some d) (hd : (S d).isSome) {w' : World V}
    (he : exec env op w = .exn w') {tmp : Nat} (ht : S tmp = none) (vs : List (Rec V)) (ra : Bool) :
    exec env (.assignRange d tmp vs ra) w' ≠ .ub ∧
      ∀ o w'', exec env (.assignRange d tmp vs ra) w' = .ok o w'' → LikeVectors env w'' (upd S d (some vs)) := by
  have R := h.rep hn
  obtain ⟨h1, h2⟩ := after_throw R hop hd he
  obtain ⟨q, hq⟩ := Option.isSome_iff_exists.1 h2
  have hne : tmp ≠ d := fun e => by rw [e] at ht; rw [ht] at hd; cases hd
  have hT : w'.vecs tmp = none := by rw [h1 tmp hne]; exact R.none tmp ht
  have := of_tri (assignFrom_tri hq hT (rangeCtor_tri (env := env) hn vs ra))
  exact ⟨this.1, fun o w'' e => (rep_assigned R h1 (this.2 o w'' e).choose_spec.1 (this.2 o w'' e).choose_spec.2).like hn⟩

/-- **C137**: the same for copy assignment from another container. -/
theorem C137_copy_assign (hn : 0 < n) (h : Reach env w S) {op : Op V} {d : Nat} (hop : throwsIn op = some d) (hd : (S d).isSome) {w' : World V}
    (he : exec env op w = .exn w') {s : Nat} {ys : List (Rec V)} (hs : S s = some ys) (hne : s ≠ d) :
    exec env (.copyAssign d s) w' ≠ .ub ∧
      ∀ o w'', exec env (.copyAssign d s) w' = .ok o w'' → LikeVectors env w'' (upd S d (some ys)) := by
  have R := h.rep hn
  obtain ⟨h1, h2⟩ := after_throw R hop hd he
  obtain ⟨q, hq⟩ := Option.isSome_iff_exists.1 h2
  obtain ⟨p, hp, gp⟩ := R.some s ys hs
  have hp' : w'.vecs s = some p := by rw [h1 s hne, hp]
  have ht : Tri (copyAssign env d s) w' (fun _ w2 => ∃ p', w2.vecs = upd w'.vecs d (some p') ∧ Good p' ys) (fun _ => MayThrow env) := by
    refine Tri.seq (get_tri hp') fun _ _ h => ?_
    obtain ⟨rfl, rfl⟩ := h
    refine (apply_post (need := ys.length) (ys := ys) hq fun j t => ?_).mono (fun _ _ h => ⟨h.choose, h.choose_spec.1, h.choose_spec.2.1⟩) fun _ h => h
    rw [if_neg (Ne.symm hne)]
    refine ⟨by simp [Col.assign, gp.data], ?_, fun h => ?_⟩
    · have := room_cap env.grow_ok (p j).data.length t (q j)
      simpa [Col.assign] using this
    · rw [← gp.len j] at h
      simp [Col.assign, room_eq _ _ h]
  have := of_tri ht
  exact ⟨this.1, fun o w'' e => (rep_assigned R h1 (this.2 o w'' e).choose_spec.1 (this.2 o w'' e).choose_spec.2).like hn⟩

/-- Histories with any number of exceptions: after each the container is cleared, destroyed or assigned to. The vectors take part in the operations that
complete and in the recovery only. -/
inductive Recovers (env : Env V) : World V → SVecs V → Prop
  | reach {w : World V} {S : SVecs V} : Reach env w S → Recovers env w S
  | step {w : World V} {S : SVecs V} {op : Op V} {o : Out V} {w' : World V} : Recovers env w S → Legal S op → (usesDefault op = true → env.recDefault = env.fieldDefault) →
      exec env op w = .ok o w' → Recovers env w' (specStep env S op)
  | clear {w : World V} {S : SVecs V} {op : Op V} {d : Nat} {w' : World V} {o : Out V} {w'' : World V} : Recovers env w S → throwsIn op = some d → (S d).isSome →
      exec env op w = .exn w' → exec env (.clear d) w' = .ok o w'' → Recovers env w'' (upd S d (some []))
  | destroy {w : World V} {S : SVecs V} {op : Op V} {d : Nat} {w' : World V} {o : Out V} {w'' : World V} : Recovers env w S → throwsIn op = some d → (S d).isSome →
      exec env op w = .exn w' → exec env (.dtor d) w' = .ok o w'' → Recovers env w'' (upd S d none)
  | moveAssign {w : World V} {S : SVecs V} {op : Op V} {d s : Nat} {ys : List (Rec V)} {w' : World V} {o : Out V} {w'' : World V} : Recovers env w S → throwsIn op = some d →
      (S d).isSome → exec env op w = .exn w' → S s = some ys → s ≠ d → exec env (.moveAssign d s) w' = .ok o w'' →
      Recovers env w'' (upd (upd S s (some [])) d (some ys))

theorem Recovers.rep (hn : 0 < n) (h : Recovers env w S) : Rep w S := by
  induction h with
  | reach h => exact h.rep hn
  | step _ L hu he ih =>
    have ht := exec_tri (env := env) hn ih L hu
    unfold Tri at ht
    rw [he] at ht; exact ht.2
  | clear _ hop hd he hc ih =>
    obtain ⟨w2, e, R⟩ := rep_after_clear ih hop hd he
    rw [e] at hc; cases hc; exact R
  | destroy _ hop hd he hc ih =>
    obtain ⟨w2, e, R⟩ := rep_after_destroy ih hop hd he
    rw [e] at hc; cases hc; exact R
  | moveAssign _ hop hd he hs hne hc ih =>
    obtain ⟨w2, e, R⟩ := rep_after_move_assign ih hop hd he hs hne
    rw [e] at hc; cases hc; exact R

/-- **C137**: any number of exceptions, each followed by `clear()`, the destructor or a move assignment, with any operations between them. -/
theorem C137_any_number (hn : 0 < n) (h : Recovers env w S) : LikeVectors env w S := (h.rep hn).like hn

/-- Such an exception: the string of the first element throws. Afterwards `clear()` and another `push_back` give a container with one element. -/
example : ∃ w, Reach (exEnv fun t => t == 1) w (upd (fun _ => none) 0 (some [])) ∧ ∃ w', exec (exEnv fun t => t == 1) (.pushBack 0 (exRec 1 "a")) w = .exn w' ∧
    ∃ w'', exec (exEnv fun t => t == 1) (.clear 0) w' = .ok .unit w'' ∧ ∃ w3, runAll (exEnv fun t => t == 1) [.pushBack 0 (exRec 2 "b")] w'' = .ok [.unit] w3 ∧
      elem 0 0 w3 = .ok (exRec 2 "b") w3 := by
  have h : Reach (exEnv fun t => t == 1) _ _ := Reach.step (Reach.init) (op := .defaultCtor 0) rfl (fun h => (by cases h)) rfl
  have he : ∃ w', exec (exEnv fun t => t == 1) (.pushBack 0 (exRec 1 "a")) ⟨upd (fun _ => none) 0 (some fun _ => ⟨[], 0, 0⟩), 0⟩ = .exn w' := ⟨_, rfl⟩
  refine ⟨_, h, _, rfl, ?_⟩
  obtain ⟨w'', e, K⟩ := C137_clear (by decide) h (op := .pushBack 0 (exRec 1 "a")) (d := 0) rfl rfl (w' := _) rfl
  refine ⟨w'', e, ?_⟩
  injection e with _ e
  subst e
  obtain ⟨_, K2⟩ := K [.pushBack 0 (exRec 2 "b")] ⟨rfl, fun h => (by cases h), trivial⟩
  exact ⟨_, rfl, ((K2 _ _ rfl).2 0 [exRec 2 "b"] rfl).2.1 0 (by decide)⟩

/-- Two exceptions, each followed by `clear()`. -/
example : ∃ w, Recovers (exEnv fun t => t == 1 || t == 3) w (upd (upd (upd (fun _ => none) 0 (some [])) 0 (some [])) 0 (some [])) ∧
    LikeVectors (exEnv fun t => t == 1 || t == 3) w (upd (upd (upd (fun _ => none) 0 (some [])) 0 (some [])) 0 (some [])) := by
  have h : Recovers (exEnv fun t => t == 1 || t == 3) _ _ := .reach (Reach.step (Reach.init) (op := .defaultCtor 0) rfl (fun h => (by cases h)) rfl)
  have h1 := h.clear (op := .pushBack 0 (exRec 1 "a")) (d := 0) rfl rfl rfl rfl
  have h2 := h1.clear (op := .pushBack 0 (exRec 1 "a")) (d := 0) rfl rfl rfl rfl
  exact ⟨_, h2, C137_any_number (by decide) h2⟩

/-- After the exception of the first example, `assign` of two elements completes and the second element is there. -/
example : ∃ w, Reach (exEnv fun t => t == 1) w (upd (fun _ => none) 0 (some [])) ∧ ∃ w', exec (exEnv fun t => t == 1) (.pushBack 0 (exRec 1 "a")) w = .exn w' ∧
    ∃ w'', exec (exEnv fun t => t == 1) (.assignRange 0 1 [exRec 1 "a", exRec 2 "b"] false) w' = .ok .unit w'' ∧
      elem 0 1 w'' = .ok (exRec 2 "b") w'' := by
  have h : Reach (exEnv fun t => t == 1) _ _ := Reach.step (Reach.init) (op := .defaultCtor 0) rfl (fun h => (by cases h)) rfl
  obtain ⟨_, K⟩ := C137_assign_range (by decide) h (op := .pushBack 0 (exRec 1 "a")) (d := 0) rfl rfl (w' := _) rfl (tmp := 1) rfl [exRec 1 "a", exRec 2 "b"] false
  refine ⟨_, h, _, rfl, _, rfl, ?_⟩
  exact (((K _ _ rfl [] trivial).2 _ _ rfl).2 0 [exRec 1 "a", exRec 2 "b"] rfl).2.1 1 (by decide)

end AnyAny.Dpv
