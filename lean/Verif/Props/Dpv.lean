import Verif.Lemmas.Dpv3
/-
data_parallel_vector: C51-C55, C66, C67.

`Reach env w S` (Spec/DpvHist.lean): a history of operations leads to `w`, the same history of `std::vector<T>` leads to `S`. `T` has
`n > 0` fields of arbitrary types.
-/
namespace AnyAny.Dpv

variable {n : Nat} {V : Fin n → Type} {env : Env V} {w : World V} {S : SVecs V}

/-! ### C51: histories of `data_parallel_vector<T>` are histories of `std::vector<T>` -/

/-- What can be observed of a container is what can be observed of the vector. -/
theorem C51_observations (hn : 0 < n) (h : Reach env w S) {d : Nat} {xs : List (Rec V)} (hd : S d = some xs) :
    size d w = .ok xs.length w ∧ isEmpty d w = .ok xs.isEmpty w ∧ (∀ i (hi : i < xs.length), elem d i w = .ok xs[i] w) ∧
    (∀ i, xs.length ≤ i → elem d i w = .ub) ∧ toList d w = .ok xs w := by
  obtain ⟨p, hp, g⟩ := (h.rep hn).some d xs hd
  have hel : ∀ i (hi : i < xs.length), elem d i w = .ok xs[i] w := by
    intro i hi
    have := elem_tri (E := fun _ => False) hn hp g hi
    unfold Tri at this
    cases he : elem d i w with
    | ok a w1 => rw [he] at this; rw [← this.2, this.1]
    | exn w1 => rw [he] at this; exact this.elim
    | ub => rw [he] at this; exact this.elim
  have hsz : size d w = .ok xs.length w := by simp [size, bind, M.bind, get, hp, pure, M.pure, g.size hn]
  refine ⟨hsz, ?_, hel, ?_, ?_⟩
  · simp only [isEmpty, bind, M.bind, get, hp, pure, M.pure, g.size hn]
    cases xs <;> rfl
  · intro i hi
    simp only [elem, bind, M.bind, get, hp, g.size hn]
    rw [if_neg (by omega)]; rfl
  · have hread : ∀ k i, i + k = xs.length → readFrom d i k w = .ok (xs.drop i) w := by
      intro k
      induction k with
      | zero => intro i hi; simp [readFrom, pure, M.pure, List.drop_eq_nil_of_le (show xs.length ≤ i by omega)]
      | succ k ih =>
        intro i hi
        have hlt : i < xs.length := by omega
        simp only [readFrom, bind, M.bind, hel i hlt, ih (i + 1) (by omega), pure, M.pure]
        rw [List.drop_eq_getElem_cons hlt]
    have h0 := hread xs.length 0 (by omega)
    simp only [toList, bind, M.bind, hsz, h0]
    simp

/-- Exactly the containers that exist exist. -/
theorem C51_exists (hn : 0 < n) (h : Reach env w S) (d : Nat) : (w.vecs d).isSome = (S d).isSome := by
  cases hd : S d with
  | none => rw [(h.rep hn).none d hd]; rfl
  | some xs => obtain ⟨p, hp, _⟩ := (h.rep hn).some d xs hd; rw [hp]; rfl

/-- Every legal operation returns what the operation of the vector returns and leads to the corresponding state, or throws. No assertion
fails and no precondition of a column is violated. If no operation on a column throws, it completes. -/
theorem C51_step (hn : 0 < n) (h : Reach env w S) {op : Op V} (L : Legal S op)
    (hdef : usesDefault op = true → env.recDefault = env.fieldDefault) :
    exec env op w ≠ .ub ∧ (∀ out w', exec env op w = .ok out w' → out = specOut S op ∧ Reach env w' (specStep env S op)) ∧
    ((∀ t, env.throws t = none) → ∃ w', exec env op w = .ok (specOut S op) w' ∧ Reach env w' (specStep env S op)) := by
  have ht := exec_tri (env := env) hn (h.rep hn) L hdef
  unfold Tri at ht
  refine ⟨fun hu => ?_, fun out w' hok => ?_, fun hnt => ?_⟩
  · rw [hu] at ht; exact ht
  · rw [hok] at ht; exact ⟨ht.1, h.step L hdef hok⟩
  · cases hex : exec env op w with
    | ok out w' => rw [hex] at ht; exact ⟨w', by rw [← ht.1], h.step L hdef hex⟩
    | exn w' => rw [hex] at ht; obtain ⟨t, h1⟩ := ht; exact absurd (hnt t) h1
    | ub => rw [hex] at ht; exact ht.elim

/-- A whole history, operation by operation. -/
def runAll (env : Env V) : List (Op V) → World V → Res V (List (Out V))
  | [], w => .ok [] w
  | op :: ops, w =>
    match exec env op w with
    | .ok o w' => match runAll env ops w' with | .ok os w'' => .ok (o :: os) w'' | .exn w'' => .exn w'' | .ub => .ub
    | .exn w' => .exn w'
    | .ub => .ub

/-- The same history of `std::vector<T>`. -/
def specAll (env : Env V) : List (Op V) → SVecs V → List (Out V) × SVecs V
  | [], S => ([], S)
  | op :: ops, S => let r := specAll env ops (specStep env S op); (specOut S op :: r.1, r.2)

def LegalAll (env : Env V) : List (Op V) → SVecs V → Prop
  | [], _ => True
  | op :: ops, S => Legal S op ∧ (usesDefault op = true → env.recDefault = env.fieldDefault) ∧ LegalAll env ops (specStep env S op)

/-- Whole histories of any length: without exceptions they complete, with the results and contents of the vectors. -/
theorem C51_history (hn : 0 < n) (hnt : ∀ t, env.throws t = none) (ops : List (Op V)) (h : Reach env w S) (L : LegalAll env ops S) :
    ∃ w', runAll env ops w = .ok (specAll env ops S).1 w' ∧ Reach env w' (specAll env ops S).2 := by
  induction ops generalizing w S with
  | nil => exact ⟨w, rfl, h⟩
  | cons op ops ih =>
    obtain ⟨w1, h1, h2⟩ := (C51_step hn h L.1 L.2.1).2.2 hnt
    obtain ⟨w2, h3, h4⟩ := ih h2 L.2.2
    exact ⟨w2, by simp [runAll, h1, h3, specAll], h4⟩

/-! An example: a record of an `int` and a `string`, a history with insertions in the middle, a swap of elements and erasure. -/

abbrev ExV : Fin 2 → Type | 0 => Int | 1 => String
def exRec (a : Int) (s : String) : Rec ExV | 0 => a | 1 => s

def exEnv (thr : Nat → Bool) : Env ExV where
  grow c k := if 2 * c < k then k else 2 * c
  grow_ok c k := by split <;> omega
  shrink k _ := k
  shrink_ok k c h := ⟨Nat.le_refl _, h⟩
  throws t := if thr t then some (fun _ l => l, fun _ x => x) else none
  fieldDefault | 0 => (0 : Int) | 1 => ""
  recDefault | 0 => (7 : Int) | 1 => "x"
  movedFrom | 0 => fun x => x | 1 => fun _ => ""

def exOps : List (Op ExV) :=
  [.defaultCtor 0, .emplaceBack 0 (exRec 1 "a"), .pushBack 0 (exRec 2 "b"), .insertRange 0 1 [exRec 3 "c", exRec 4 "d"] true,
   .copyCtor 1 0, .swapRef 0 0 1 3, .erase 0 1, .iterMove 1 2, .setField 1 0 1 "z"]

theorem exOps_legal : LegalAll (exEnv fun _ => false) exOps fun _ => none := by
  refine ⟨rfl, fun h => (by cases h), rfl, fun h => (by cases h), rfl, fun h => (by cases h), ⟨[exRec 1 "a", exRec 2 "b"], rfl, by decide⟩, fun h => (by cases h),
    ⟨rfl, rfl⟩, fun h => (by cases h), ⟨⟨[exRec 1 "a", exRec 3 "c", exRec 4 "d", exRec 2 "b"], rfl, by decide⟩, ⟨[exRec 1 "a", exRec 3 "c", exRec 4 "d", exRec 2 "b"], rfl, by decide⟩⟩,
    fun h => (by cases h), ⟨[exRec 2 "b", exRec 3 "c", exRec 4 "d", exRec 2 "b"], rfl, by decide⟩, fun h => (by cases h),
    ⟨[exRec 1 "a", exRec 3 "c", exRec 4 "d", exRec 1 "a"], rfl, by decide⟩, fun h => (by cases h),
    ⟨_, rfl, by decide⟩, fun h => (by cases h), trivial⟩

/-- The history completes, and the first container then holds these records. -/
example : ∃ w, Reach (exEnv fun _ => false) w (specAll (exEnv fun _ => false) exOps fun _ => none).2 ∧
    toList 0 w = .ok [exRec 2 "b", exRec 4 "d", exRec 2 "b"] w := by
  obtain ⟨w, _, h⟩ := C51_history (by decide) (fun _ => rfl) exOps Reach.init exOps_legal
  exact ⟨w, h, (C51_observations (by decide) h rfl).2.2.2.2⟩

/-! ### C52: columns of equal length -/

/-- Part of C52: after any history of completed operations of every kind, and of throwing constructors, `assign`, `reserve`,
`shrink_to_fit` and element assignments, all spans of a container have the length `size()`. Missing: the other operations that throw, for which it
is false (`C52_fails`). -/
theorem C52_partial (hn : 0 < n) (h : Reach env w S) {d : Nat} {xs : List (Rec V)} (hd : S d = some xs) (j : Fin n) :
    ∃ l, view d j w = .ok l w ∧ size d w = .ok l.length w := by
  obtain ⟨p, hp, g⟩ := (h.rep hn).some d xs hd
  refine ⟨(p j).data, by simp [view, bind, M.bind, get, hp, pure, M.pure], ?_⟩
  simp [size, bind, M.bind, get, hp, pure, M.pure, g.size hn, g.len]

/-- Operations that change the length of columns one after another: their container. -/
def resizing : Op V → Option Nat
  | .emplaceBack d _ | .pushBack d _ | .emplace d _ _ | .insertVal d _ _ | .insertCount d _ _ _ | .erase d _ | .resize d _ | .resizeVal d _ _
  | .copyAssign d _ => some d
  | _ => none

theorem one_ne_zero' {m : Nat} : (1 : Fin (m + 2)) ≠ 0 := fun h => by have := congrArg Fin.val h; simp at this

theorem forCols_second {m : Nat} {V : Fin (m + 2) → Type} {env : Env V} (f : (j : Fin (m + 2)) → Nat → Col (V j) → Col (V j)) (left) (p : Parts V) (t : Nat) {g}
    (h0 : env.throws t = none) (h1 : env.throws (t + 1) = some g) :
    forCols env f left (List.finRange (m + 2)) p t = (setP (setP p 0 (f 0 t (p 0))) 1 (left g 1 (p 1)), t + 2, true) := by
  have e : List.finRange (m + 2) = 0 :: 1 :: (List.finRange m).map fun i => i.succ.succ := by
    rw [List.finRange_succ, List.finRange_succ]; simp
  rw [e]
  simp only [forCols, h0, h1]
  rw [setP_other _ _ one_ne_zero']

theorem apply_second {m : Nat} {V : Fin (m + 2) → Type} {env : Env V} {w : World V} {d : Nat} {p : Parts V} (hp : w.vecs d = some p)
    (f : (j : Fin (m + 2)) → Nat → Col (V j) → Col (V j)) (left) {g} (h0 : env.throws w.tick = none) (h1 : env.throws (w.tick + 1) = some g) :
    ∃ w' p', apply env d f left w = .exn w' ∧ w'.vecs d = some p' ∧ p' 0 = f 0 w.tick (p 0) ∧ p' 1 = left g 1 (p 1) := by
  refine ⟨⟨upd w.vecs d (some (setP (setP p 0 (f 0 w.tick (p 0))) 1 (left g 1 (p 1)))), w.tick + 2⟩, _, ?_, upd_same _ _ _, ?_, ?_⟩
  · unfold apply
    simp only [hp, forCols_second f left p w.tick h0 h1]
    rfl
  · rw [setP_other _ _ one_ne_zero'.symm, setP_same]
  · rw [setP_same]

/-- The property fails: whenever one of these operations changes the size of the container and the operation on the second column throws,
even if that leaves the second column as it was, the first two spans have different lengths. -/
theorem C52_fails {m : Nat} {V : Fin (m + 2) → Type} {env : Env V} {w : World V} {S : SVecs V} (h : Reach env w S) {op : Op V} (L : Legal S op)
    {d : Nat} (hop : resizing op = some d) {xs ys : List (Rec V)} (hd : S d = some xs) (hd' : specStep env S op d = some ys) (hl : xs.length ≠ ys.length)
    {g} (h0 : env.throws w.tick = none) (h1 : env.throws (w.tick + 1) = some g) (hg : ∀ l, (g.1 1 l).length = l.length) :
    ∃ w' l0 l1, exec env op w = .exn w' ∧ view d 0 w' = .ok l0 w' ∧ view d 1 w' = .ok l1 w' ∧ l0.length = ys.length ∧ l1.length = xs.length := by
  have R := h.rep (by omega)
  obtain ⟨p, hp, gp⟩ := R.some d xs hd
  have done : ∀ {α : Type} (m' : M V α), (∃ w' p', m' w = .exn w' ∧ w'.vecs d = some p' ∧ (p' 0).data.length = ys.length ∧ (p' 1).data.length = xs.length) →
      ∀ k : α → M V (Out V), ∃ w' l0 l1, (m' >>= k) w = .exn w' ∧ view d 0 w' = .ok l0 w' ∧ view d 1 w' = .ok l1 w' ∧ l0.length = ys.length ∧ l1.length = xs.length := by
    rintro α m' ⟨w', p', h1, h2, h3, h4⟩ k
    exact ⟨w', (p' 0).data, (p' 1).data, by rw [bind_apply, h1], by simp [view, bind, M.bind, get, h2, pure, M.pure],
      by simp [view, bind, M.bind, get, h2, pure, M.pure], h3, h4⟩
  have col : ∀ (f : (j : Fin (m + 2)) → Nat → Col (V j) → Col (V j)) (left), (∀ t, (f 0 t (p 0)).data.length = ys.length) →
      ((left g 1 (p 1)).data.length = (p 1).data.length) →
      ∃ w' p', apply env d f left w = .exn w' ∧ w'.vecs d = some p' ∧ (p' 0).data.length = ys.length ∧ (p' 1).data.length = xs.length := by
    intro f left hf hleft
    obtain ⟨w', p', e1, e2, e3, e4⟩ := apply_second hp f left h0 h1
    exact ⟨w', p', e1, e2, by rw [e3]; exact hf _, by rw [e4, hleft, gp.len]⟩
  have iter : ∀ {i : Nat}, i ≤ xs.length → iteratorAt d i w = .ok () w := by
    intro i hi
    have := iteratorAt_tri (E := fun _ => False) (by omega) hp gp hi
    unfold Tri at this
    cases he : iteratorAt d i w with
    | ok a w1 => rw [he] at this; rw [← this]
    | exn w1 => rw [he] at this; exact this.elim
    | ub => rw [he] at this; exact this.elim
  have after : ∀ {α : Type} {i : Nat} (m1 : M V Unit) (k : M V α), i ≤ xs.length →
      (∃ w' p', m1 w = .exn w' ∧ w'.vecs d = some p' ∧ (p' 0).data.length = ys.length ∧ (p' 1).data.length = xs.length) →
      ∃ w' p', (do iteratorAt d i; m1; k : M V α) w = .exn w' ∧ w'.vecs d = some p' ∧ (p' 0).data.length = ys.length ∧ (p' 1).data.length = xs.length := by
    rintro α i m1 k hi ⟨w', p', e1, e2⟩
    exact ⟨w', p', by rw [bind_apply, iter hi]; dsimp only; rw [bind_apply, e1], e2⟩
  have ins : ∀ {i : Nat} (vs : (j : Fin (m + 2)) → List (V j)), i ≤ xs.length → (∀ t, (Col.insert env.grow i (vs 0) t (p 0)).data.length = ys.length) →
      ((leftBasic g 1 (p 1)).data.length = (p 1).data.length) →
      ∃ w' p', insertCols env d i vs w = .exn w' ∧ w'.vecs d = some p' ∧ (p' 0).data.length = ys.length ∧ (p' 1).data.length = xs.length := by
    intro i vs hi hf hleft
    obtain ⟨w', p', e1, e2⟩ := col (fun j t c => Col.insert env.grow i (vs j) t c) leftBasic hf hleft
    refine ⟨w', p', ?_, e2⟩
    have hpos : positions d i w = .ok () w := by
      have : ∀ j, i ≤ (p j).data.length := fun j => by rw [gp.len]; exact hi
      simp [positions, bind, M.bind, get, hp, this, pure, M.pure]
    unfold insertCols
    rw [bind_apply, hpos]
    exact e1
  have hbasic : (leftBasic g 1 (p 1)).data.length = (p 1).data.length := hg _
  have hlen := gp.len
  cases op with
  | emplaceBack d' v =>
    cases hop
    simp only [specStep, upd_same, hd, Option.map_some, Option.some.injEq] at hd'
    subst hd'
    exact done _ (col _ leftStrong (fun t => by simp [Col.pushBack, hlen]) rfl) _
  | pushBack d' v =>
    cases hop
    simp only [specStep, upd_same, hd, Option.map_some, Option.some.injEq] at hd'
    subst hd'
    exact done _ (col _ leftStrong (fun t => by simp [Col.pushBack, hlen]) rfl) _
  | emplace d' i v =>
    cases hop
    simp only [specStep, upd_same, hd, Option.map_some, Option.some.injEq] at hd'
    subst hd'
    obtain ⟨xs', hx, hi⟩ := L
    rw [hd] at hx; cases hx
    exact done _ (after _ _ hi (ins _ hi (fun t => by simp [Col.insert, hlen]) hbasic)) _
  | insertVal d' i v =>
    cases hop
    simp only [specStep, upd_same, hd, Option.map_some, Option.some.injEq] at hd'
    subst hd'
    obtain ⟨xs', hx, hi⟩ := L
    rw [hd] at hx; cases hx
    exact done _ (after _ _ hi (ins _ hi (fun t => by simp [Col.insert, hlen]) hbasic)) _
  | insertCount d' i k v =>
    cases hop
    simp only [specStep, upd_same, hd, Option.map_some, Option.some.injEq] at hd'
    subst hd'
    obtain ⟨xs', hx, hi⟩ := L
    rw [hd] at hx; cases hx
    exact done _ (after _ _ hi (ins _ hi (fun t => by simp [Col.insert, hlen]) hbasic)) _
  | erase d' i =>
    cases hop
    simp only [specStep, upd_same, hd, Option.map_some, Option.some.injEq] at hd'
    subst hd'
    obtain ⟨xs', hx, hi⟩ := L
    rw [hd] at hx; cases hx
    refine done _ ?_ _
    obtain ⟨w', p', e1, e2⟩ := col (fun _ _ c => Col.erase i c) leftBasic (fun t => by simp [Col.erase, List.length_eraseIdx, hlen]) hbasic
    refine ⟨w', p', ?_, e2⟩
    have hsz : get d w = .ok p w := by simp [get, hp]
    simp only [erase]
    rw [bind_apply, hsz]; dsimp only
    rw [if_pos (fun j => by rw [hlen]; exact hi), bind_apply, e1]
  | resize d' k =>
    cases hop
    simp only [specStep, upd_same, hd, Option.map_some, Option.some.injEq] at hd'
    subst hd'
    exact done _ (col _ leftStrong (fun t => by simp [Col.resize, hlen]) rfl) _
  | resizeVal d' k v =>
    cases hop
    simp only [specStep, upd_same, hd, Option.map_some, Option.some.injEq] at hd'
    subst hd'
    exact done _ (col _ leftStrong (fun t => by simp [Col.resize, hlen]) rfl) _
  | copyAssign d' s =>
    cases hop
    simp only [specStep, upd_same] at hd'
    obtain ⟨q, hq, gq⟩ := R.some s ys hd'
    have hne : d ≠ s := fun hc => by subst hc; rw [hd] at hd'; cases hd'; exact hl rfl
    refine done _ ?_ _
    obtain ⟨w', p', e1, e2⟩ := col (fun j t c => if d = s then c else Col.assign env.grow (q j).data t c) leftBasic
      (fun t => by simp [hne, Col.assign, gq.len]) hbasic
    refine ⟨w', p', ?_, e2⟩
    simp only [copyAssign]
    rw [bind_apply]; simp only [get, hq]; exact e1
  | _ => cases hop

/-- The consequence: if the operation was to make the container larger, `size()` counts elements that do not exist, and reading any of them
is undefined behaviour. -/
theorem C52_undefined_fails {m : Nat} {V : Fin (m + 2) → Type} {env : Env V} {w : World V} {S : SVecs V} (h : Reach env w S) {op : Op V} (L : Legal S op)
    {d : Nat} (hop : resizing op = some d) {xs ys : List (Rec V)} (hd : S d = some xs) (hd' : specStep env S op d = some ys) (hl : xs.length < ys.length)
    {g} (h0 : env.throws w.tick = none) (h1 : env.throws (w.tick + 1) = some g) (hg : ∀ l, (g.1 1 l).length = l.length) :
    ∃ w', exec env op w = .exn w' ∧ size d w' = .ok ys.length w' ∧ ∀ i, xs.length ≤ i → elem d i w' = .ub := by
  obtain ⟨w', l0, l1, e, v0, v1, k0, k1⟩ := C52_fails h L hop hd hd' (by omega) h0 h1 hg
  refine ⟨w', e, ?_, fun i hi => ?_⟩
  · cases hp : w'.vecs d with
    | none => simp [view, bind, M.bind, get, hp] at v0
    | some p =>
      simp only [view, bind, M.bind, get, hp, pure, M.pure, Res.ok.injEq, and_true] at v0
      simp [size, sizeP, bind, M.bind, get, hp, pure, M.pure, ← k0, ← v0]
  · cases hp : w'.vecs d with
    | none => simp [elem, bind, M.bind, get, hp]
    | some p =>
      simp only [view, bind, M.bind, get, hp, pure, M.pure, Res.ok.injEq, and_true] at v1
      have hr : readRec p i = none := by
        unfold readRec
        rw [dif_neg]
        intro hc
        have := hc 1
        rw [v1, k1] at this
        omega
      simp only [elem, bind, M.bind, get, hp, hr]
      split <;> rfl

/-- Consequence: after an `emplace_back` failing in the second column the element counted by `size()` cannot be accessed. -/
theorem C52_fails_access {m : Nat} {V : Fin (m + 2) → Type} {env : Env V} {w : World V} {S : SVecs V} (h : Reach env w S) {d : Nat}
    {xs : List (Rec V)} (hd : S d = some xs) (v : Rec V) {g} (h0 : env.throws w.tick = none) (h1 : env.throws (w.tick + 1) = some g)
    (hg : ∀ l, (g.1 1 l).length = l.length) :
    ∃ w', exec env (.emplaceBack d v) w = .exn w' ∧ size d w' = .ok (xs.length + 1) w' ∧ elem d xs.length w' = .ub := by
  obtain ⟨w', l0, l1, e1, e2, e3, e4, e5⟩ := C52_fails h (op := .emplaceBack d v) (d := d) (xs := xs) (ys := xs ++ [v]) (by simp [Legal, hd]) rfl hd
    (by simp [specStep, upd_same, hd]) (by simp) h0 h1 hg
  refine ⟨w', e1, ?_⟩
  cases hp : w'.vecs d with
  | none => simp [view, bind, M.bind, get, hp] at e2
  | some p =>
    simp only [view, bind, M.bind, get, hp, pure, M.pure, Res.ok.injEq, and_true] at e2 e3
    subst e2 e3
    have hs : sizeP p = xs.length + 1 := by simpa [sizeP] using e4
    refine ⟨by simp [size, bind, M.bind, get, hp, pure, M.pure, hs], ?_⟩
    simp only [elem, bind, M.bind, get, hp, hs]
    rw [if_pos (by omega)]
    have : readRec p xs.length = none := by
      unfold readRec
      rw [dif_neg]
      intro hall
      have := hall 1
      rw [e5] at this
      omega
    rw [this]; rfl

/-- Such a state and operation: an empty container of records of an `int` and a `string`; the allocation for the string throws. -/
example : ∃ w, Reach (exEnv fun t => t == 1) w (upd (fun _ => none) 0 (some [])) ∧ ∃ w', exec (exEnv fun t => t == 1) (.emplaceBack 0 (exRec 1 "a")) w = .exn w' ∧
    size 0 w' = .ok 1 w' ∧ elem 0 0 w' = .ub := by
  have h : Reach (exEnv fun t => t == 1) _ _ := Reach.step (Reach.init) (op := .defaultCtor 0) rfl (fun h => (by cases h)) rfl
  exact ⟨_, h, C52_fails_access h (xs := []) rfl (exRec 1 "a") rfl rfl fun _ => rfl⟩

/-! ### C53: spans -/

/-- The span of a field is the list of that field of all elements. -/
theorem C53_view (hn : 0 < n) (h : Reach env w S) {d : Nat} {xs : List (Rec V)} (hd : S d = some xs) (j : Fin n) :
    view d j w = .ok (xs.map (· j)) w := by
  obtain ⟨p, hp, g⟩ := (h.rep hn).some d xs hd
  simp [view, bind, M.bind, get, hp, pure, M.pure, g.data]

/-- A write to field `j` of element `i` (through a span or a reference) changes exactly that field of that element of that
container. -/
theorem C53_write_field (hn : 0 < n) (h : Reach env w S) {d i : Nat} {xs : List (Rec V)} (hd : S d = some xs) (hi : i < xs.length) (j : Fin n) (x : V j) :
    ∃ w', exec env (.setField d i j x) w = .ok .unit w' ∧ view d j w' = .ok ((xs.map (· j)).set i x) w' ∧
    (∀ k, k ≠ j → view d k w' = .ok (xs.map (· k)) w') ∧ ∀ d' ys k, d' ≠ d → S d' = some ys → view d' k w' = .ok (ys.map (· k)) w' := by
  have L : Legal S (.setField d i j x) := ⟨xs, hd, hi⟩
  have ht := exec_tri (env := env) hn (h.rep hn) L (fun h => (by cases h))
  have hex : ∃ w', exec env (.setField d i j x) w = .ok .unit w' := by
    obtain ⟨p, hp, g⟩ := (h.rep hn).some d xs hd
    exact ⟨_, by simp [exec, setField, bind, M.bind, get, hp, g.len, hi, put, pure, M.pure]; rfl⟩
  obtain ⟨w', hex⟩ := hex
  have h' : Reach env w' _ := h.step L (fun h => (by cases h)) hex
  have hS : specStep env S (.setField d i j x) d = some (xs.modify i fun r => setRec r j x) := by simp [specStep, upd_same, hd]
  refine ⟨w', hex, ?_, fun k hk => ?_, fun d' ys k hd' hys => ?_⟩
  · rw [C53_view hn h' hS]
    congr 1
    apply List.ext_getElem?
    intro m
    simp only [List.getElem?_modify, List.getElem?_map, List.getElem?_set, List.length_map]
    by_cases hm : i = m
    · subst hm; simp [hi, setRec]
    · cases xs[m]? <;> simp [hm]
  · rw [C53_view hn h' hS]
    congr 1
    apply List.ext_getElem?
    intro m
    simp only [List.getElem?_modify, List.getElem?_map]
    by_cases hm : i = m
    · subst hm; simp [hi, setRec, hk]
    · cases xs[m]? <;> simp [hm]
  · rw [C53_view hn h' (xs := ys)]
    simp [specStep, upd_other _ _ hd', hys]

example : ∃ w S, Reach (exEnv fun _ => false) w S ∧ S 1 = some [exRec 1 "z", exRec 3 "c", exRec 4 "", exRec 1 "a"] := by
  obtain ⟨w, _, h⟩ := C51_history (by decide) (fun _ => rfl) exOps Reach.init exOps_legal
  refine ⟨w, _, h, ?_⟩
  have e1 : setRec (exRec 1 "a") 1 "z" = exRec 1 "z" := by funext j; match j with | 0 => rfl | 1 => rfl
  have e2 : (fun j => (exEnv fun _ => false).movedFrom j (exRec 4 "d" j)) = exRec 4 "" := by funext j; match j with | 0 => rfl | 1 => rfl
  rw [← e1, ← e2]; rfl

/-! ### C54: comparison -/

/-- Lexicographic comparison by fields: the first fields that do not compare equal decide. -/
def Lex (cmp : (j : Fin n) → V j → V j → Cmp) (a b : Rec V) (r : Cmp) : Prop :=
  ((∀ j, cmp j (a j) (b j) = .equal) ∧ r = .equal) ∨
    ∃ j, (∀ k, k < j → cmp k (a k) (b k) = .equal) ∧ cmp j (a j) (b j) ≠ .equal ∧ r = cmp j (a j) (b j)

theorem cmpStep_foldl (cmp : (j : Fin n) → V j → V j → Cmp) (a b : Rec V) (js : List (Fin n)) :
    (∀ c, (js.foldl (cmpStep cmp a b) (true, c)) = (true, c)) ∧
    ∀ c, (js.foldl (cmpStep cmp a b) (false, c)).2 =
      match js.find? fun j => cmp j (a j) (b j) != .equal with
      | some j => cmp j (a j) (b j)
      | none => if js = [] then c else .equal := by
  induction js with
  | nil => simp
  | cons j js ih =>
    refine ⟨fun c => ?_, fun c => ?_⟩
    · simp only [List.foldl_cons, cmpStep, if_true]; exact ih.1 c
    · simp only [List.foldl_cons, List.find?_cons]
      by_cases hj : cmp j (a j) (b j) = .equal
      · simp only [cmpStep, hj, bne_self_eq_false, Bool.false_eq_true, if_false]
        rw [ih.2]
        cases List.find? (fun j => cmp j (a j) (b j) != Cmp.equal) js <;> simp
      · have : (cmp j (a j) (b j) != .equal) = true := by simp [hj]
        simp only [cmpStep, this, Bool.false_eq_true, if_false]
        rw [ih.1]

/-- `<=>` of references and values is lexicographic comparison of the records. -/
theorem C54_compare (cmp : (j : Fin n) → V j → V j → Cmp) (a b : Rec V) (r : Cmp) : compareByFields cmp a b = r ↔ Lex cmp a b r := by
  have huniq : ∀ r r', Lex cmp a b r → Lex cmp a b r' → r = r' := by
    rintro r r' (⟨h1, rfl⟩ | ⟨j, h1, h2, rfl⟩) (⟨h3, rfl⟩ | ⟨k, h3, h4, rfl⟩)
    · rfl
    · exact absurd (h1 k) h4
    · exact absurd (h3 j) h2
    · rcases Nat.lt_trichotomy j.val k.val with h | h | h
      · exact absurd (h3 j h) h2
      · have := Fin.ext h; subst this; rfl
      · exact absurd (h1 k h) h4
  have hlex : Lex cmp a b (compareByFields cmp a b) := by
    unfold compareByFields
    rw [(cmpStep_foldl cmp a b _).2]
    cases hf : (List.finRange n).find? fun j => cmp j (a j) (b j) != .equal with
    | none =>
      rw [List.find?_eq_none] at hf
      refine .inl ⟨fun j => by simpa using hf j (List.mem_finRange j), ?_⟩
      simp
    | some j =>
      rw [List.find?_eq_some_iff_append] at hf
      obtain ⟨h1, as, bs, h2, h3⟩ := hf
      refine .inr ⟨j, fun k hk => ?_, by simpa using h1, rfl⟩
      have hm : k ∈ List.finRange n := List.mem_finRange k
      have hp := List.pairwise_lt_finRange n
      rw [h2] at hm hp
      rw [List.mem_append] at hm
      rcases hm with hm | hm
      · simpa using h3 k hm
      · rw [List.pairwise_append] at hp
        have hp := hp.2.1
        rw [List.pairwise_cons] at hp
        rw [List.mem_cons] at hm
        rcases hm with rfl | hm
        · exact absurd hk (Nat.lt_irrefl _)
        · exact absurd (Nat.lt_trans hk (hp.1 k hm)) (Nat.lt_irrefl _)
  constructor
  · rintro rfl; exact hlex
  · exact fun h => huniq _ _ hlex h

/-- `==` of references: all fields compare equal. -/
theorem C54_eq (cmp : (j : Fin n) → V j → V j → Cmp) (a b : Rec V) : eqByFields cmp a b = true ↔ ∀ j, cmp j (a j) (b j) = .equal := by
  unfold eqByFields
  rw [beq_iff_eq, C54_compare]
  constructor
  · rintro (⟨h, _⟩ | ⟨j, _, h2, h3⟩)
    · exact h
    · exact absurd h3.symm h2
  · exact fun h => .inl ⟨h, rfl⟩

/-- `==` of containers: equal sizes, and all fields of elements at the same position compare equal. -/
theorem C54_container (hn : 0 < n) (h : Reach env w S) {d e : Nat} {xs ys : List (Rec V)} (hd : S d = some xs) (he : S e = some ys)
    (cmp : (j : Fin n) → V j → V j → Cmp) :
    ∃ r, equal cmp d e w = .ok r w ∧
      (r = true ↔ xs.length = ys.length ∧ ∀ i (hx : i < xs.length) (hy : i < ys.length) j, cmp j (xs[i] j) (ys[i] j) = .equal) := by
  obtain ⟨h1, _, h2, _⟩ := C51_observations hn h hd
  obtain ⟨h3, _, h4, _⟩ := C51_observations hn h he
  have hfrom : ∀ k i, i + k = xs.length → xs.length = ys.length → ∃ r, equalFrom cmp d e i k w = .ok r w ∧
      (r = true ↔ ∀ m (hx : m < xs.length) (hy : m < ys.length), i ≤ m → ∀ j, cmp j (xs[m] j) (ys[m] j) = .equal) := by
    intro k
    induction k with
    | zero =>
      intro i hi _
      refine ⟨true, rfl, by simp; intro m hx _ hm; omega⟩
    | succ k ih =>
      intro i hi hl
      have hx : i < xs.length := by omega
      have hy : i < ys.length := by omega
      simp only [equalFrom, bind, M.bind, h2 i hx, h4 i hy]
      cases hc : eqByFields cmp xs[i] ys[i] with
      | true =>
        obtain ⟨r, e1, e2⟩ := ih (i + 1) (by omega) hl
        refine ⟨r, e1, e2.trans ⟨fun hh m hx hy hm => ?_, fun hh m hx hy hm => hh m hx hy (by omega)⟩⟩
        by_cases him : i = m
        · subst him; exact (C54_eq cmp _ _).mp hc
        · exact hh m hx hy (by omega)
      | false =>
        refine ⟨false, rfl, by simp; refine ⟨i, Nat.le_refl _, hx, hy, ?_⟩; have := mt (C54_eq cmp xs[i] ys[i]).mpr (by simp [hc]); simpa using this⟩
  simp only [equal, bind, M.bind, h1, h3]
  by_cases hl : xs.length = ys.length
  · obtain ⟨r, e1, e2⟩ := hfrom xs.length 0 (by omega) hl
    rw [if_pos hl]
    refine ⟨r, e1, e2.trans ⟨fun hh => ⟨hl, fun m hx hy j => hh m hx hy (Nat.zero_le _) j⟩, fun hh m hx hy _ j => hh.2 m hx hy j⟩⟩
  · rw [if_neg hl]
    exact ⟨false, rfl, by simp [hl]⟩

/-- If fields compare equal exactly if they are equal, containers compare equal exactly if they hold equal records. -/
theorem C54_container_eq (hn : 0 < n) (h : Reach env w S) {d e : Nat} {xs ys : List (Rec V)} (hd : S d = some xs) (he : S e = some ys)
    (cmp : (j : Fin n) → V j → V j → Cmp) (hcmp : ∀ j x y, cmp j x y = .equal ↔ x = y) :
    ∃ r, equal cmp d e w = .ok r w ∧ (r = true ↔ xs = ys) := by
  obtain ⟨r, h1, h2⟩ := C54_container hn h hd he cmp
  refine ⟨r, h1, h2.trans ⟨fun hh => ?_, fun hh => ?_⟩⟩
  · refine List.ext_getElem hh.1 fun i hx hy => ?_
    funext j
    exact (hcmp j _ _).mp (hh.2 i hx hy j)
  · subst hh; exact ⟨rfl, fun i _ _ j => (hcmp j _ _).mpr rfl⟩

/-- Comparison of an `int` and a `string`. -/
def exCmp : (j : Fin 2) → ExV j → ExV j → Cmp
  | 0 => fun (a b : Int) => if a < b then .less else if a = b then .equal else .greater
  | 1 => fun (a b : String) => if a < b then .less else if a = b then .equal else .greater

example : compareByFields exCmp (exRec 1 "b") (exRec 1 "a") = .greater ∧ compareByFields exCmp (exRec 1 "b") (exRec 2 "a") = .less := by decide

/-! ### C55: assignment and swapping through references -/

/-- `ref = value`: exactly the element referred to is replaced, by the value. -/
theorem C55_assign_value (hn : 0 < n) (h : Reach env w S) {d i : Nat} {xs : List (Rec V)} (hd : S d = some xs) (hi : i < xs.length) (v : Rec V) :
    exec env (.assignElem d i v) w ≠ .ub ∧ ∀ o w', exec env (.assignElem d i v) w = .ok o w' →
      elem d i w' = .ok v w' ∧
      ∀ e ys k (hk : k < ys.length), S e = some ys → ¬(e = d ∧ k = i) → elem e k w' = .ok ys[k] w' := by
  have L : Legal S (.assignElem d i v) := ⟨xs, hd, hi⟩
  obtain ⟨h1, h2, _⟩ := C51_step hn h L (fun h => (by cases h))
  refine ⟨h1, fun o w' he => ?_⟩
  have h' := (h2 o w' he).2
  have hS : specStep env S (.assignElem d i v) d = some (xs.set i v) := by simp [specStep, upd_same, hd]
  refine ⟨?_, fun e ys k hk hys hne => ?_⟩
  · rw [(C51_observations hn h' hS).2.2.1 i (by simpa using hi)]; simp
  · by_cases hed : e = d
    · subst hed
      rw [hd] at hys; cases hys
      rw [(C51_observations hn h' hS).2.2.1 k (by simpa using hk)]
      rw [List.getElem_set_ne (by intro hc; exact hne ⟨rfl, hc.symm⟩)]
    · exact (C51_observations hn h' (xs := ys) (by simp [specStep, upd_other _ _ hed, hys])).2.2.1 k hk

/-- `ref = other_ref`, also if both refer to the same element: the element gets the value `other_ref` refers to, nothing else
changes. -/
theorem C55_assign_ref (hn : 0 < n) (h : Reach env w S) {d i e k : Nat} {xs ys : List (Rec V)} (hd : S d = some xs) (hi : i < xs.length)
    (he : S e = some ys) (hk : k < ys.length) :
    exec env (.assignRef d i e k) w ≠ .ub ∧ ∀ o w', exec env (.assignRef d i e k) w = .ok o w' →
      elem d i w' = .ok ys[k] w' ∧
      ∀ f zs m (hm : m < zs.length), S f = some zs → ¬(f = d ∧ m = i) → elem f m w' = .ok zs[m] w' := by
  have L : Legal S (.assignRef d i e k) := ⟨⟨xs, hd, hi⟩, ys, he, hk⟩
  obtain ⟨h1, h2, _⟩ := C51_step hn h L (fun h => (by cases h))
  refine ⟨h1, fun o w' hex => ?_⟩
  have h' := (h2 o w' hex).2
  have hS : specStep env S (.assignRef d i e k) d = some (xs.set i ys[k]) := by
    simp [specStep, upd_same, hd, he, List.getElem?_eq_getElem hk]
  refine ⟨?_, fun f zs m hm hzs hne => ?_⟩
  · rw [(C51_observations hn h' hS).2.2.1 i (by simpa using hi)]; simp
  · by_cases hed : f = d
    · subst hed
      rw [hd] at hzs; cases hzs
      rw [(C51_observations hn h' hS).2.2.1 m (by simpa using hm)]
      rw [List.getElem_set_ne (by intro hc; exact hne ⟨rfl, hc.symm⟩)]
    · exact (C51_observations hn h' (xs := zs) (by simp [specStep, upd_other _ _ hed, hzs])).2.2.1 m hm

/-- `swap(ref1, ref2)` always completes and exchanges the two elements, also if both references refer to the same one; nothing else
changes. -/
theorem C55_swap (hn : 0 < n) (h : Reach env w S) {d i e k : Nat} {xs ys : List (Rec V)} (hd : S d = some xs) (hi : i < xs.length)
    (he : S e = some ys) (hk : k < ys.length) :
    ∃ w', exec env (.swapRef d i e k) w = .ok .unit w' ∧ elem d i w' = .ok ys[k] w' ∧ elem e k w' = .ok xs[i] w' ∧
      ∀ f zs m (hm : m < zs.length), S f = some zs → ¬(f = d ∧ m = i) → ¬(f = e ∧ m = k) → elem f m w' = .ok zs[m] w' := by
  have L : Legal S (.swapRef d i e k) := ⟨⟨xs, hd, hi⟩, ys, he, hk⟩
  have ht := swapRef_tri (E := fun _ => False) hn (h.rep hn) hd he hi hk
  have hex : ∃ w', exec env (.swapRef d i e k) w = .ok .unit w' := by
    unfold Tri at ht
    cases hs : swapRef d i e k w with
    | ok a w' => exact ⟨w', by simp [exec, bind, M.bind, hs, pure, M.pure]⟩
    | exn w' => rw [hs] at ht; exact ht.elim
    | ub => rw [hs] at ht; exact ht.elim
  obtain ⟨w', hex⟩ := hex
  have h' : Reach env w' _ := h.step L (fun h => (by cases h)) hex
  have hS : specStep env S (.swapRef d i e k) = specSwapRef S d i e k := rfl
  rw [hS] at h'
  have hi' := List.getElem?_eq_getElem hi
  have hk' := List.getElem?_eq_getElem hk
  have key : ∀ f zs m (hm : m < zs.length), S f = some zs → elem f m w' = .ok (if f = e ∧ m = k then xs[i] else if f = d ∧ m = i then ys[k] else zs[m]) w' := by
    intro f zs m hm hf
    rw [← mixed_all hd he hi' hk'] at h'
    have h2 := (C51_observations hn h' (d := f) (by simp only [mixed, hf]; rfl)).2.2.1 m (by simpa using hm)
    rw [h2]
    have e1 : ∀ a b : Rec V, mix (fun _ => true) a b = b := fun a b => by funext j; simp [mix]
    simp only [List.getElem_mapIdx, e1]
  refine ⟨w', hex, ?_, ?_, fun f zs m hm hf h1 h2 => ?_⟩
  · rw [key d xs i hi hd]
    by_cases hc : d = e ∧ i = k
    · obtain ⟨rfl, rfl⟩ := hc
      rw [hd] at he; cases he
      simp
    · simp [hc]
  · rw [key e ys k hk he]; simp
  · rw [key f zs m hm hf]; simp [h1, h2]

/-- Swapping an element with itself changes nothing. -/
theorem C55_swap_self (hn : 0 < n) (h : Reach env w S) {d i : Nat} {xs : List (Rec V)} (hd : S d = some xs) (hi : i < xs.length) :
    ∃ w', exec env (.swapRef d i d i) w = .ok .unit w' ∧ ∀ f zs m (hm : m < zs.length), S f = some zs → elem f m w' = .ok zs[m] w' := by
  obtain ⟨w', h1, h2, h3, h4⟩ := C55_swap hn h hd hi hd hi
  refine ⟨w', h1, fun f zs m hm hf => ?_⟩
  by_cases hc : f = d ∧ m = i
  · obtain ⟨rfl, rfl⟩ := hc
    rw [hd] at hf; cases hf
    exact h2
  · exact h4 f zs m hm hf hc hc

/-! ### C66: default elements -/

/-- The property fails if `T()` differs from the record of value-initialised fields (default member initialisers): `resize(n)` to a larger size
adds elements with value-initialised fields. -/
theorem C66_fails (hn : 0 < n) (h : Reach env w S) {d k : Nat} {xs : List (Rec V)} (hd : S d = some xs) (hk : xs.length < k)
    (hne : env.recDefault ≠ env.fieldDefault) {o : Out V} {w' : World V} (he : exec env (.resize d k) w = .ok o w') :
    ∃ r, elem d xs.length w' = .ok r w' ∧ r ≠ env.recDefault := by
  obtain ⟨p, hp, g⟩ := (h.rep hn).some d xs hd
  have ht := resizeWith_tri (env := env) hp g k env.fieldDefault
  have hr : resize env d k w = .ok () w' := by
    simp only [exec, bind, M.bind] at he
    cases hr : resize env d k w with
    | ok a w1 => rw [hr] at he; cases he; rfl
    | exn w1 => rw [hr] at he; cases he
    | ub => rw [hr] at he; cases he
  unfold Tri at ht
  unfold resize at hr
  rw [hr] at ht
  obtain ⟨p', h1, h2, _⟩ := ht
  have := elem_tri (E := fun _ => False) (w := w') (d := d) (p := p') hn (by rw [h1, upd_same]) h2 (i := xs.length) (by simp; omega)
  unfold Tri at this
  cases hel : elem d xs.length w' with
  | ok a w1 =>
    rw [hel] at this
    refine ⟨a, by rw [← this.2], ?_⟩
    rw [this.1, List.getElem_append_right (by simp; omega)]
    simpa using hne.symm
  | exn w1 => rw [hel] at this; exact this.elim
  | ub => rw [hel] at this; exact this.elim

/-- Part of C66: if `T()` has value-initialised fields, `resize(n)` adds elements `T()` and keeps the others, and the constructor makes `n`
elements `T()`. -/
theorem C66_partial (hn : 0 < n) (h : Reach env w S) (heq : env.recDefault = env.fieldDefault) (d k : Nat) :
    (∀ xs, S d = some xs → ∀ o w', exec env (.resize d k) w = .ok o w' →
      toList d w' = .ok (xs.take k ++ List.replicate (k - xs.length) env.recDefault) w') ∧
    (S d = none → ∀ o w', exec env (.countCtor d k) w = .ok o w' → toList d w' = .ok (List.replicate k env.recDefault) w') := by
  refine ⟨fun xs hd o w' he => ?_, fun hd o w' he => ?_⟩
  · have h' := h.step (op := .resize d k) (by simp [Legal, hd]) (fun _ => heq) he
    exact (C51_observations hn h' (by simp [specStep, upd_same, hd])).2.2.2.2
  · have h' := h.step (op := .countCtor d k) hd (fun _ => heq) he
    exact (C51_observations hn h' (by simp [specStep, upd_same])).2.2.2.2

/-- C66, exactly: the elements added by `resize` to a larger size, if it returns, are `T()` if and only if `T()` has value-initialised fields. -/
theorem C66_exact (hn : 0 < n) (h : Reach env w S) {d k : Nat} {xs : List (Rec V)} (hd : S d = some xs) (hk : xs.length < k)
    {o : Out V} {w' : World V} (he : exec env (.resize d k) w = .ok o w') :
    (∀ i, xs.length ≤ i → i < k → elem d i w' = .ok env.recDefault w') ↔ env.recDefault = env.fieldDefault := by
  constructor
  · intro ht
    refine Classical.byContradiction fun hne => ?_
    obtain ⟨r, h1, h2⟩ := C66_fails hn h hd hk hne he
    rw [ht _ (Nat.le_refl _) hk] at h1
    cases h1
    exact h2 rfl
  · intro heq i hi hik
    have h' := h.step (op := .resize d k) (by simp [Legal, hd]) (fun _ => heq) he
    obtain ⟨_, _, he', _⟩ := C51_observations hn h' (d := d) (xs := xs.take k ++ List.replicate (k - xs.length) env.recDefault)
      (by simp [specStep, upd_same, hd])
    rw [he' i (by simp; omega), List.getElem_append_right (by simp; omega)]
    simp

/-- A record whose `T()` is `{7, "x"}`: the element added by `resize(1)` is `{0, ""}`. -/
example : ∃ w' r, Reach (exEnv fun _ => false) { (init ExV) with vecs := upd (fun _ => none) 0 (some fun _ => ⟨[], 0, 0⟩) } (upd (fun _ => none) 0 (some [])) ∧
    exec (exEnv fun _ => false) (.resize 0 1) { (init ExV) with vecs := upd (fun _ => none) 0 (some fun _ => ⟨[], 0, 0⟩) } = .ok .unit w' ∧
    elem 0 0 w' = .ok r w' ∧ r ≠ (exEnv fun _ => false).recDefault := by
  have h : Reach (exEnv fun _ => false) _ _ := Reach.step (Reach.init) (op := .defaultCtor 0) rfl (fun h => (by cases h)) rfl
  have hne : (exEnv fun _ => false).recDefault ≠ (exEnv fun _ => false).fieldDefault := fun h => by
    have : (7 : Int) = 0 := congrFun h 0
    omega
  obtain ⟨r, h1⟩ := C66_fails (by decide) h (d := 0) (xs := []) rfl (k := 1) (by decide) hne (o := .unit) rfl
  exact ⟨_, r, h, rfl, h1⟩

/-! ### C67: spans remain valid while the size does not exceed the capacity -/

/-- Operations that work in the memory of the container if it is large enough: the container. -/
def inPlace : Op V → Option Nat
  | .emplaceBack d _ | .pushBack d _ | .emplace d _ _ | .insertVal d _ _ | .insertCount d _ _ _ | .insertRange d _ _ _ | .erase d _ | .clear d
  | .popBack d | .reserve d _ | .resize d _ | .resizeVal d _ _ | .assignElem d _ _ | .assignRef d _ _ _ | .iterMove d _ | .setField d _ _ _ => some d
  | _ => none

/-- The resulting size, or what is asked of `reserve`, is at most `c`. -/
def Within (env : Env V) (S : SVecs V) (c : Nat) (op : Op V) : Prop :=
  (∀ d ys, inPlace op = some d → specStep env S op d = some ys → ys.length ≤ c) ∧ ∀ d k, op = .reserve d k → k ≤ c

theorem ok_of_unit {m : M V Unit} {w w' : World V} {o o' : Out V} (h : (do m; pure o : M V (Out V)) w = .ok o' w') : m w = .ok () w' := by
  rw [bind_apply] at h
  cases hm : m w with
  | ok a w1 => rw [hm] at h; cases h; rfl
  | exn w1 => rw [hm] at h; cases h
  | ub => rw [hm] at h; cases h

theorem ok_of_bind {α} {m : M V α} {w w' : World V} {k : α → Out V} {o' : Out V} (h : (do let r ← m; pure (k r) : M V (Out V)) w = .ok o' w') :
    ∃ r, m w = .ok r w' := by
  rw [bind_apply] at h
  cases hm : m w with
  | ok a w1 => rw [hm] at h; cases h; exact ⟨a, rfl⟩
  | exn w1 => rw [hm] at h; cases h
  | ub => rw [hm] at h; cases h

theorem Tri.ok {α} {m : M V α} {w w' : World V} {a : α} {P E} (h : Tri m w P E) (he : m w = .ok a w') : P a w' := by
  unfold Tri at h; rw [he] at h; exact h

/-- The spans of all fields, and the capacity, after such an operation refer to the same memory as before. -/
theorem C67_spans (hn : 0 < n) (h : Reach env w S) {op : Op V} (L : Legal S op) {d c : Nat} (hop : inPlace op = some d) (hc : capacity d w = .ok c w)
    (hw : Within env S c op) {o : Out V} {w' : World V} (he : exec env op w = .ok o w') :
    capacity d w' = .ok c w' ∧ ∀ j b l, spanOf d j w = .ok (b, l) w → ∃ l', spanOf d j w' = .ok (b, l') w' := by
  have R := h.rep hn
  have hS : ∃ xs, S d = some xs := by
    cases hd : S d with
    | some xs => exact ⟨xs, rfl⟩
    | none => simp [capacity, bind, M.bind, get, R.none d hd] at hc
  obtain ⟨xs, hd⟩ := hS
  obtain ⟨p, hp, gp⟩ := R.some d xs hd
  have hcp : c = capacityP p := by simpa [capacity, bind, M.bind, get, hp, pure, M.pure] using hc.symm
  subst hcp
  have done : ∀ {need : Nat} {ys : List (Rec V)}, Post w d p need ys w' → need ≤ capacityP p →
      capacity d w' = .ok (capacityP p) w' ∧ ∀ j b l, spanOf d j w = .ok (b, l) w → ∃ l', spanOf d j w' = .ok (b, l') w' := by
    intro need ys hpost hneed
    obtain ⟨p', h1, h2, h3⟩ := hpost.get
    have hs := h3 hneed
    refine ⟨by simp [capacity, bind, M.bind, get, h1, pure, M.pure, hs.capacity], fun j b l hb => ?_⟩
    simp only [spanOf, bind, M.bind, get, hp, h1, pure, M.pure, Res.ok.injEq, Prod.mk.injEq, and_true] at hb ⊢
    exact ⟨(p' j).data.length, by rw [(hs j).1, hb.1], rfl⟩
  have hw1 := hw.1 d
  cases op with
  | emplaceBack d' v =>
    cases hop
    simp only [specStep, upd_same, hd, Option.map_some] at hw1
    exact done ((emplaceBack_tri hp gp v).ok (ok_of_unit he)) (by simpa using hw1 _ rfl rfl)
  | pushBack d' v =>
    cases hop
    simp only [specStep, upd_same, hd, Option.map_some] at hw1
    exact done ((emplaceBack_tri hp gp v).ok (ok_of_unit he)) (by simpa using hw1 _ rfl rfl)
  | emplace d' i v =>
    cases hop
    simp only [specStep, upd_same, hd, Option.map_some] at hw1
    obtain ⟨xs', hx, hi⟩ := L
    rw [hd] at hx; cases hx
    obtain ⟨r, he⟩ := ok_of_bind he
    have := hw1 _ rfl rfl
    exact done ((emplace_tri hn hp gp hi v).ok he).2 (by simp at this; omega)
  | insertVal d' i v =>
    cases hop
    simp only [specStep, upd_same, hd, Option.map_some] at hw1
    obtain ⟨xs', hx, hi⟩ := L
    rw [hd] at hx; cases hx
    obtain ⟨r, he⟩ := ok_of_bind he
    have := hw1 _ rfl rfl
    exact done ((emplace_tri hn hp gp hi v).ok he).2 (by simp at this; omega)
  | insertCount d' i k v =>
    cases hop
    simp only [specStep, upd_same, hd, Option.map_some] at hw1
    obtain ⟨xs', hx, hi⟩ := L
    rw [hd] at hx; cases hx
    obtain ⟨r, he⟩ := ok_of_bind he
    have := hw1 _ rfl rfl
    exact done ((insertCount_tri hn hp gp hi k v).ok he).2 (by simp at this; omega)
  | insertRange d' i vs ra =>
    cases hop
    simp only [specStep, upd_same, hd, Option.map_some] at hw1
    obtain ⟨xs', hx, hi⟩ := L
    rw [hd] at hx; cases hx
    obtain ⟨r, he⟩ := ok_of_bind he
    have := hw1 _ rfl rfl
    exact done ((insertRange_tri hn hp gp hi vs ra).ok he).2 (by simp at this; omega)
  | erase d' i =>
    cases hop
    obtain ⟨xs', hx, hi⟩ := L
    rw [hd] at hx; cases hx
    obtain ⟨r, he⟩ := ok_of_bind he
    exact done ((erase_tri hn hp gp hi).ok he).2 (Nat.zero_le _)
  | clear d' => cases hop; exact done ((clear_tri (E := fun _ => False) hp).ok (ok_of_unit he)) (Nat.zero_le _)
  | popBack d' =>
    cases hop
    obtain ⟨xs', hx, hne⟩ := L
    rw [hd] at hx; cases hx
    exact done ((popBack_tri (E := fun _ => False) hp gp hne).ok (ok_of_unit he)) (Nat.zero_le _)
  | reserve d' k => cases hop; exact done ((reserve_tri hp gp k).ok (ok_of_unit he)) (hw.2 d k rfl)
  | resize d' k =>
    cases hop
    simp only [specStep, upd_same, hd, Option.map_some] at hw1
    have := hw1 _ rfl rfl
    exact done ((resizeWith_tri hp gp k env.fieldDefault).ok (ok_of_unit he)) (by simp at this; omega)
  | resizeVal d' k v =>
    cases hop
    simp only [specStep, upd_same, hd, Option.map_some] at hw1
    have := hw1 _ rfl rfl
    exact done ((resizeWith_tri hp gp k v).ok (ok_of_unit he)) (by simp at this; omega)
  | assignElem d' i v =>
    cases hop
    obtain ⟨xs', hx, hi⟩ := L
    rw [hd] at hx; cases hx
    exact done ((assignElem_tri hn hp gp hi v).ok (ok_of_unit he)) (Nat.zero_le _)
  | assignRef d' i e k =>
    cases hop
    obtain ⟨⟨xs', hx, hi⟩, ys, hy, hk⟩ := L
    rw [hd] at hx; cases hx
    obtain ⟨q, hq, gq⟩ := R.some e ys hy
    exact done ((assignRef_tri hn hp gp hi hq gq hk).ok (ok_of_unit he)) (Nat.zero_le _)
  | iterMove d' i =>
    cases hop
    obtain ⟨xs', hx, hi⟩ := L
    rw [hd] at hx; cases hx
    obtain ⟨r, he⟩ := ok_of_bind he
    exact done ((iterMove_tri (E := fun _ => False) hn hp gp hi).ok he).2 (Nat.zero_le _)
  | setField d' i j x =>
    cases hop
    obtain ⟨xs', hx, hi⟩ := L
    rw [hd] at hx; cases hx
    exact done ((setField_tri (E := fun _ => False) hp gp hi j x).ok (ok_of_unit he)) (Nat.zero_le _)
  | _ => cases hop

/-- `reserve(k)` makes the capacity at least `k` and keeps the elements. -/
theorem C67_reserve (hn : 0 < n) (h : Reach env w S) {d k : Nat} {xs : List (Rec V)} (hd : S d = some xs) {o : Out V} {w' : World V}
    (he : exec env (.reserve d k) w = .ok o w') : (∃ c, capacity d w' = .ok c w' ∧ k ≤ c) ∧ toList d w' = .ok xs w' := by
  have h' := h.step (op := .reserve d k) (by simp [Legal, hd]) (fun h => (by cases h)) he
  refine ⟨?_, (C51_observations hn h' hd).2.2.2.2⟩
  obtain ⟨p, hp, gp⟩ := (h.rep hn).some d xs hd
  have he := ok_of_unit he
  obtain ⟨h1, h2, h3⟩ := forCols_cases (env := env) (fun j t (c : Col (V j)) => Col.reserve env.grow k t c) leftStrong
    (List.finRange n) (List.nodup_finRange n) p w.tick
  unfold reserve apply at he
  simp only [hp] at he
  cases hb : (forCols env (fun j t (c : Col (V j)) => Col.reserve env.grow k t c) leftStrong (List.finRange n) p w.tick).2.2 with
  | true => simp [hb] at he
  | false =>
    simp only [hb, Bool.false_eq_true, if_false, Res.ok.injEq, true_and] at he
    subst he
    refine ⟨_, by simp only [capacity, bind, M.bind, get, upd_same, pure, M.pure]; rfl, ?_⟩
    refine le_capacityP hn fun j => ?_
    obtain ⟨t', h5⟩ := h2 hb j (List.mem_finRange j)
    rw [h5]
    exact room_cap env.grow_ok _ _ _

/-- All operations of the history work in place in `d`, within `c` elements. -/
def AllWithin (env : Env V) (d c : Nat) : List (Op V) → SVecs V → Prop
  | [], _ => True
  | op :: ops, S => inPlace op = some d ∧ Within env S c op ∧ AllWithin env d c ops (specStep env S op)

/-- Whole histories: after `reserve(c)`, or in any state with capacity `c`, spans remain valid until an operation needs more than `c` elements. -/
theorem C67_history (hn : 0 < n) (ops : List (Op V)) (h : Reach env w S) (L : LegalAll env ops S) {d c : Nat} (hc : capacity d w = .ok c w)
    (hw : AllWithin env d c ops S) {os : List (Out V)} {w' : World V} (he : runAll env ops w = .ok os w') :
    capacity d w' = .ok c w' ∧ ∀ j b l, spanOf d j w = .ok (b, l) w → ∃ l', spanOf d j w' = .ok (b, l') w' := by
  induction ops generalizing w S os with
  | nil =>
    simp only [runAll, Res.ok.injEq] at he
    obtain ⟨_, rfl⟩ := he
    exact ⟨hc, fun j b l hb => ⟨l, hb⟩⟩
  | cons op ops ih =>
    simp only [runAll] at he
    cases he1 : exec env op w with
    | exn w1 => rw [he1] at he; cases he
    | ub => rw [he1] at he; cases he
    | ok o w1 =>
      rw [he1] at he
      dsimp only at he
      cases he2 : runAll env ops w1 with
      | exn w2 => rw [he2] at he; cases he
      | ub => rw [he2] at he; cases he
      | ok os' w2 =>
        rw [he2] at he
        cases he
        obtain ⟨h1, h2⟩ := C67_spans hn h L.1 hw.1 hc hw.2.1 he1
        obtain ⟨h3, h4⟩ := ih (h.step L.1 L.2.1 he1) L.2.2 h1 hw.2.2 he2
        refine ⟨h3, fun j b l hb => ?_⟩
        obtain ⟨l', hb'⟩ := h2 j b l hb
        exact h4 j b l' hb'

/-- After `reserve(3)` two elements are added and one is removed in place. -/
example : AllWithin (exEnv fun _ => false) 0 3 [.emplaceBack 0 (exRec 1 "a"), .insertVal 0 0 (exRec 2 "b"), .popBack 0] (upd (fun _ => none) 0 (some [])) ∧
    LegalAll (exEnv fun _ => false) [.emplaceBack 0 (exRec 1 "a"), .insertVal 0 0 (exRec 2 "b"), .popBack 0] (upd (fun _ => none) 0 (some [])) := by
  refine ⟨⟨rfl, ⟨?_, fun _ _ h => (by cases h)⟩, rfl, ⟨?_, fun _ _ h => (by cases h)⟩, rfl, ⟨?_, fun _ _ h => (by cases h)⟩, trivial⟩,
    rfl, fun h => (by cases h), ⟨[exRec 1 "a"], rfl, by decide⟩, fun h => (by cases h), ⟨[exRec 2 "b", exRec 1 "a"], rfl, by simp⟩, fun h => (by cases h), trivial⟩ <;>
  · intro d ys h1 h2
    cases h1; cases h2; decide

end AnyAny.Dpv
