import Verif.Lemmas.Dpv2
/-
Constructors, assignments, swaps; every step refines the step of `std::vector<T>`.
-/
namespace AnyAny.Dpv

variable {n : Nat} {V : Fin n → Type} {env : Env V}

/-- The columns of all containers hold the fields of the records. -/
structure Rep (w : World V) (S : SVecs V) : Prop where
  some : ∀ d xs, S d = some xs → ∃ p, w.vecs d = some p ∧ Good p xs
  none : ∀ d, S d = none → w.vecs d = none

theorem Rep.back {w : World V} {S : SVecs V} (R : Rep w S) {d : Nat} {p : Parts V} (h : w.vecs d = .some p) :
    ∃ xs, S d = .some xs ∧ Good p xs := by
  cases hs : S d with
  | none => rw [R.none d hs] at h; cases h
  | some xs =>
    obtain ⟨p', h1, h2⟩ := R.some d xs hs
    rw [h] at h1; cases h1
    exact ⟨xs, rfl, h2⟩

theorem Rep.upd {w w' : World V} {S : SVecs V} (R : Rep w S) {d : Nat} {p : Parts V} {xs : List (Rec V)} (h : w'.vecs = upd w.vecs d (.some p))
    (g : Good p xs) : Rep w' (upd S d (.some xs)) := by
  constructor
  · intro e ys he
    by_cases hd : e = d
    · subst hd; rw [upd_same] at he; cases he; exact ⟨p, by rw [h, upd_same], g⟩
    · rw [upd_other _ _ hd] at he; rw [h, upd_other _ _ hd]; exact R.some e ys he
  · intro e he
    by_cases hd : e = d
    · subst hd; rw [upd_same] at he; cases he
    · rw [upd_other _ _ hd] at he; rw [h, upd_other _ _ hd]; exact R.none e he

theorem Rep.drop {w w' : World V} {S : SVecs V} (R : Rep w S) {d : Nat} (h : w'.vecs = Dpv.upd w.vecs d .none) : Rep w' (Dpv.upd S d .none) := by
  constructor
  · intro e ys he
    by_cases hd : e = d
    · subst hd; rw [upd_same] at he; cases he
    · rw [upd_other _ _ hd] at he; rw [h, upd_other _ _ hd]; exact R.some e ys he
  · intro e he
    by_cases hd : e = d
    · subst hd; rw [h, upd_same]
    · rw [upd_other _ _ hd] at he; rw [h, upd_other _ _ hd]; exact R.none e he

theorem Rep.vecs {w w' : World V} {S : SVecs V} (R : Rep w S) (h : w'.vecs = w.vecs) : Rep w' S := by
  constructor
  · rw [h]; exact R.some
  · rw [h]; exact R.none

theorem Rep.post {w w' : World V} {S : SVecs V} (R : Rep w S) {d need : Nat} {p : Parts V} {xs : List (Rec V)} (h : Post w d p need xs w') :
    Rep w' (Dpv.upd S d (.some xs)) := by
  obtain ⟨p', h1, h2, _⟩ := h
  exact R.upd h1 h2

theorem good_nil (t : Nat) : Good (fun _ => ⟨[], 0, t⟩ : Parts V) [] := ⟨fun _ => rfl, fun _ => Nat.le_refl _⟩

theorem new_good {α} (grow : Nat → Nat → Nat) (hg : ∀ c k, k ≤ grow c k) (xs : List α) (t : Nat) :
    (Col.new grow xs t).data = xs ∧ (Col.new grow xs t).data.length ≤ (Col.new grow xs t).cap := by
  unfold Col.new
  exact ⟨room_data _ _ _ _, by rw [room_data]; exact room_cap hg _ _ _⟩

section ctors
variable {w : World V} {d : Nat} {xs : List (Rec V)}

theorem construct_tri {mk : (j : Fin n) → Nat → Col (V j)}
    (hmk : ∀ j t, (mk j t).data = xs.map (· j) ∧ (mk j t).data.length ≤ (mk j t).cap) :
    Tri (construct env d mk) w (fun _ w' => ∃ p', w'.vecs = upd w.vecs d (some p') ∧ Good p' xs) (fun w' => MayThrow env ∧ w'.vecs = w.vecs) := by
  obtain ⟨h1, h2, h3⟩ := forCols_cases (env := env) (fun j t _ => mk j t) leftStrong (List.finRange n) (List.nodup_finRange n)
    (fun _ => ⟨[], 0, 0⟩) w.tick
  unfold Tri construct
  dsimp only
  cases hb : (forCols env (fun j t _ => mk j t) leftStrong (List.finRange n) (fun _ => ⟨[], 0, 0⟩) w.tick).2.2 with
  | true => exact ⟨(h3 hb).1, rfl⟩
  | false =>
    have h4 := h2 hb
    refine ⟨_, rfl, ⟨fun j => ?_, fun j => ?_⟩⟩
    · obtain ⟨t', h5⟩ := h4 j (List.mem_finRange j)
      rw [h5]; exact (hmk j t').1
    · obtain ⟨t', h5⟩ := h4 j (List.mem_finRange j)
      rw [h5]; exact (hmk j t').2

theorem countValueCtor_tri (k : Nat) (v : Rec V) :
    Tri (countValueCtor env d k v) w (fun _ w' => ∃ p', w'.vecs = upd w.vecs d (some p') ∧ Good p' (List.replicate k v))
      (fun w' => MayThrow env ∧ w'.vecs = w.vecs) :=
  construct_tri fun j t => by
    have := new_good env.grow env.grow_ok (List.replicate k (v j)) t
    refine ⟨?_, this.2⟩
    rw [this.1]; simp

theorem countCtor_tri (k : Nat) :
    Tri (countCtor env d k) w (fun _ w' => ∃ p', w'.vecs = upd w.vecs d (some p') ∧ Good p' (List.replicate k env.fieldDefault))
      (fun w' => MayThrow env ∧ w'.vecs = w.vecs) :=
  construct_tri fun j t => by
    have := new_good env.grow env.grow_ok (List.replicate k (env.fieldDefault j)) t
    refine ⟨?_, this.2⟩
    rw [this.1]; simp

theorem copyCtor_tri {s : Nat} {p : Parts V} (hp : w.vecs s = some p) (g : Good p xs) :
    Tri (copyCtor env d s) w (fun _ w' => ∃ p', w'.vecs = upd w.vecs d (some p') ∧ Good p' xs) (fun w' => MayThrow env ∧ w'.vecs = w.vecs) := by
  refine Tri.seq (get_tri hp) fun _ _ h => ?_
  obtain ⟨rfl, rfl⟩ := h
  refine construct_tri fun j t => ?_
  have := new_good env.grow env.grow_ok (p j).data t
  exact ⟨by rw [this.1, g.data], this.2⟩

theorem rangeCtor_tri (hn : 0 < n) (vs : List (Rec V)) (ra : Bool) :
    Tri (rangeCtor env d vs ra) w (fun _ w' => ∃ p', w'.vecs = upd w.vecs d (some p') ∧ Good p' vs)
      (fun w' => MayThrow env ∧ w'.vecs = w.vecs) := by
  have h : Tri (do defaultCtor d; insertRange env d 0 vs ra : M V Nat) w
      (fun _ w' => ∃ p', w'.vecs = upd w.vecs d (some p') ∧ Good p' vs) (fun _ => MayThrow env) := by
    refine Tri.seq (Q := fun _ w' => w'.vecs = upd w.vecs d (some fun _ => ⟨[], 0, w.tick⟩)) rfl fun _ w' hw => ?_
    have := insertRange_tri (env := env) (w := w') (d := d) (i := 0) (xs := []) hn (by rw [hw, upd_same]) (good_nil w.tick) (Nat.zero_le _) vs ra
    refine this.mono (fun r w'' h => ?_) fun _ h => h
    obtain ⟨_, p', h1, h2, _⟩ := h
    exact ⟨p', by rw [h1, hw, upd_upd], by simpa using h2⟩
  unfold Tri at h ⊢
  unfold rangeCtor
  cases hm : (do defaultCtor d; insertRange env d 0 vs ra : M V Nat) w with
  | ok a w' => rw [hm] at h; exact h
  | exn w' => rw [hm] at h; exact ⟨h, rfl⟩
  | ub => rw [hm] at h; exact h

theorem copyAssign_tri {s : Nat} {p q : Parts V} {ys : List (Rec V)} (hp : w.vecs d = some p) (g : Good p xs) (hq : w.vecs s = some q) (g' : Good q ys) :
    Tri (copyAssign env d s) w (fun _ w' => Post w d p ys.length ys w') (fun _ => MayThrow env) := by
  refine Tri.seq (get_tri hq) fun _ _ h => ?_
  obtain ⟨rfl, rfl⟩ := h
  refine apply_post hp fun j t => ?_
  split
  · rename_i he
    subst he
    rw [hp] at hq; cases hq
    exact ⟨g'.data j, g'.cap j, fun _ => ⟨rfl, rfl⟩⟩
  · refine ⟨?_, ?_, fun h => ?_⟩
    · simp [Col.assign, g'.data]
    · have := room_cap env.grow_ok (q j).data.length t (p j)
      simpa [Col.assign] using this
    · rw [← g'.len j] at h
      simp [Col.assign, room_eq _ _ h]

theorem assignFrom_tri {tmp : Nat} {p : Parts V} {mk : M V Unit} (hp : w.vecs d = some p) (ht : w.vecs tmp = none)
    (h : Tri mk w (fun _ w' => ∃ p', w'.vecs = upd w.vecs tmp (some p') ∧ Good p' xs) (fun w' => MayThrow env ∧ w'.vecs = w.vecs)) :
    Tri (assignFrom d tmp mk) w (fun _ w' => ∃ p', w'.vecs = upd w.vecs d (some p') ∧ Good p' xs) (fun w' => MayThrow env ∧ w'.vecs = w.vecs) := by
  have hne : d ≠ tmp := fun he => by subst he; rw [hp] at ht; cases ht
  refine Tri.seq h fun _ w1 h1 => ?_
  obtain ⟨p', h1, g⟩ := h1
  have e1 : w1.vecs d = some p := by rw [h1, upd_other _ _ hne, hp]
  have e2 : w1.vecs tmp = some p' := by rw [h1, upd_same]
  refine Tri.seq (Q := fun _ w' => w'.vecs = upd (upd w1.vecs tmp (some fun _ => ⟨[], 0, w1.tick⟩)) d (some p')) ?_ fun _ w2 h2 => ?_
  · simp [Tri, moveAssign, e1, e2, hne]
  · refine ⟨p', ?_, g⟩
    show upd w2.vecs tmp none = _
    rw [h2, h1, upd_upd, upd_comm _ _ _ hne.symm, upd_upd, upd_comm _ _ _ hne, upd_self (k := tmp)]
    rw [ht]

end ctors

/-! ### swapping elements -/

/-- `a` with the fields in `P` from `b`. -/
def mix (P : Fin n → Bool) (a b : Rec V) : Rec V := fun j => if P j then b j else a j

theorem mix_self (P : Fin n → Bool) (a : Rec V) : mix P a a = a := by funext j; simp [mix]

theorem setRec_self (a : Rec V) (j : Fin n) : setRec a j (a j) = a := by
  funext x
  by_cases hx : x = j
  · subst hx; simp [setRec]
  · simp [setRec, hx]

/-- Fields in `P` of `d[i]` and `e[k]` (which are `a` and `b` in `S`) exchanged. -/
def mixed (S : SVecs V) (d i e k : Nat) (a b : Rec V) (P : Fin n → Bool) : SVecs V := fun x =>
  (S x).map fun zs => zs.mapIdx fun m r => if x = e ∧ m = k then mix P b a else if x = d ∧ m = i then mix P a b else r

theorem putField_tri {E} {w : World V} {d : Nat} {p : Parts V} {xs : List (Rec V)} {i : Nat} (hp : w.vecs d = some p) (g : Good p xs)
    (hi : i < xs.length) (j : Fin n) (x : V j) :
    Tri (put d (setP p j (Col.set i x (p j)))) w (fun _ w' => Post w d p 0 (xs.modify i fun r => setRec r j x) w') E := by
  have h := setField_tri (E := E) hp g hi j x
  have e1 : setField d i j x w = put d (setP p j (Col.set i x (p j))) w := by
    simp only [setField, bind, M.bind, get, hp]
    rw [if_pos (by rw [g.len]; exact hi)]
  unfold Tri at h ⊢
  rwa [e1] at h

/-- Contents after one field has been swapped. -/
def swapFieldS (S : SVecs V) (d i e k : Nat) (j : Fin n) (x y : V j) : SVecs V :=
  let S1 := upd S d ((S d).map (·.modify i fun r => setRec r j y))
  upd S1 e ((S1 e).map (·.modify k fun r => setRec r j x))

theorem swapField_tri {E} {w : World V} {S : SVecs V} (R : Rep w S) {d i e k : Nat} {xs ys : List (Rec V)} {a b : Rec V}
    (hd : S d = some xs) (he : S e = some ys) (hi : xs[i]? = some a) (hk : ys[k]? = some b) (j : Fin n) :
    Tri (swapField d i e k j) w (fun _ w' => Rep w' (swapFieldS S d i e k j (a j) (b j))) E := by
  obtain ⟨p, hp, gp⟩ := R.some d _ hd
  obtain ⟨q, hq, gq⟩ := R.some e _ he
  refine Tri.seq (get_tri hp) fun _ _ h => ?_
  obtain ⟨rfl, rfl⟩ := h
  refine Tri.seq (get_tri hq) fun _ _ h => ?_
  obtain ⟨rfl, rfl⟩ := h
  have hx : (p j).data[i]? = some (a j) := by rw [gp.data]; simp [hi]
  have hy : (q j).data[k]? = some (b j) := by rw [gq.data]; simp [hk]
  have hin : i < xs.length := (List.getElem?_eq_some_iff.mp hi).1
  have hkn : k < ys.length := (List.getElem?_eq_some_iff.mp hk).1
  rw [hx, hy]
  refine Tri.seq (putField_tri hp gp hin j (b j)) fun _ w2 h2 => ?_
  have R2 := R.post h2
  have : ∃ ys', upd S d (some (xs.modify i fun r => setRec r j (b j))) e = some ys' ∧ k < ys'.length := by
    by_cases hde : e = d
    · subst hde; rw [hd] at he; cases he
      exact ⟨_, upd_same _ _ _, by simpa using hkn⟩
    · exact ⟨ys, by rw [upd_other _ _ hde, he], hkn⟩
  obtain ⟨ys', he', hk'⟩ := this
  obtain ⟨q', hq', gq'⟩ := R2.some e ys' he'
  refine Tri.seq (get_tri hq') fun _ _ h => ?_
  obtain ⟨rfl, rfl⟩ := h
  refine (putField_tri hq' gq' hk' j (a j)).mono (fun _ w3 h3 => ?_) fun _ h => h
  have := R2.post h3
  simp only [swapFieldS, hd, Option.map_some, he']
  exact this

theorem swapFieldS_mixed {S : SVecs V} {d i e k : Nat} {xs ys : List (Rec V)} {a b : Rec V} (hd : S d = some xs) (he : S e = some ys)
    (hi : xs[i]? = some a) (hk : ys[k]? = some b) (P : Fin n → Bool) (j : Fin n) :
    swapFieldS (mixed S d i e k a b P) d i e k j (a j) (b j) = mixed S d i e k a b fun x => decide (x = j) || P x := by
  have hab : d = e → i = k → a = b := by
    intro h1 h2; subst h1 h2; rw [hd] at he; cases he; rw [hi] at hk; exact Option.some.inj hk
  have hs : ∀ a b : Rec V, setRec (mix P a b) j (b j) = mix (fun x => decide (x = j) || P x) a b := by
    intro a b; funext x
    by_cases hx : x = j
    · subst hx; simp [setRec, mix]
    · simp [setRec, mix, hx]
  funext x
  by_cases hxe : x = e
  · subst hxe
    by_cases hxd : x = d
    · subst hxd
      rw [hd] at he; cases he
      simp only [swapFieldS, mixed, upd, hd]
      simp
      apply List.ext_getElem?
      intro m
      simp only [List.getElem?_modify, List.getElem?_mapIdx]
      by_cases hm : k = m
      · subst hm
        by_cases hm2 : i = k
        · subst hm2
          have := hab rfl rfl; subst this
          simp [hi, mix_self, setRec_self]
        · simp [hm2, hk, hs]
      · by_cases hm2 : i = m
        · subst hm2; simp [hi, hs, hm, Ne.symm hm]
        · cases xs[m]? <;> simp [hm, hm2, Ne.symm hm, Ne.symm hm2]
    · simp only [swapFieldS, mixed, upd, he]
      simp [hxd]
      apply List.ext_getElem?
      intro m
      simp only [List.getElem?_modify, List.getElem?_mapIdx]
      by_cases hm : k = m
      · subst hm; simp [hk, hs]
      · cases ys[m]? <;> simp [hm, Ne.symm hm]
  · by_cases hxd : x = d
    · subst hxd
      simp only [swapFieldS, mixed, upd, hd]
      simp [hxe]
      apply List.ext_getElem?
      intro m
      simp only [List.getElem?_modify, List.getElem?_mapIdx]
      by_cases hm : i = m
      · subst hm; simp [hi, hs]
      · cases xs[m]? <;> simp [hm, Ne.symm hm]
    · simp only [swapFieldS, mixed, upd]
      simp [hxe, hxd]

theorem mixed_none {S : SVecs V} {d i e k : Nat} {xs ys : List (Rec V)} {a b : Rec V} (hd : S d = some xs) (he : S e = some ys)
    (hi : xs[i]? = some a) (hk : ys[k]? = some b) : mixed S d i e k a b (fun _ => false) = S := by
  funext x
  have h0 : ∀ a b : Rec V, mix (fun _ => false) a b = a := fun a b => by funext j; simp [mix]
  simp only [mixed, h0]
  cases hx : S x with
  | none => rfl
  | some zs =>
    simp only [Option.map_some, Option.some.injEq]
    apply List.ext_getElem?
    intro m
    simp only [List.getElem?_mapIdx]
    by_cases h1 : x = e ∧ m = k
    · obtain ⟨rfl, rfl⟩ := h1
      rw [he] at hx; cases hx
      simp [hk]
    · by_cases h2 : x = d ∧ m = i
      · obtain ⟨rfl, rfl⟩ := h2
        rw [hd] at hx; cases hx
        simp [hi, h1]
      · cases zs[m]? <;> simp [h1, h2]

theorem mixed_all {S : SVecs V} {d i e k : Nat} {xs ys : List (Rec V)} {a b : Rec V} (hd : S d = some xs) (he : S e = some ys)
    (hi : xs[i]? = some a) (hk : ys[k]? = some b) : mixed S d i e k a b (fun _ => true) = specSwapRef S d i e k := by
  have h0 : ∀ a b : Rec V, mix (fun _ => true) a b = b := fun a b => by funext j; simp [mix]
  have hin : i < xs.length := (List.getElem?_eq_some_iff.mp hi).1
  have hkn : k < ys.length := (List.getElem?_eq_some_iff.mp hk).1
  funext x
  simp only [specSwapRef, hd, he, Option.bind_some, hi, hk, mixed, h0, upd]
  by_cases hxe : x = e
  · subst hxe
    by_cases hxd : x = d
    · subst hxd
      rw [hd] at he; cases he
      simp only [hd]
      simp
      apply List.ext_getElem?
      intro m
      simp only [List.getElem?_mapIdx, List.getElem?_set, List.length_set]
      by_cases hm : k = m
      · subst hm; simp [hk, hkn]
      · by_cases hm2 : i = m
        · subst hm2; simp [hi, hin, hm, Ne.symm hm]
        · cases xs[m]? <;> simp [hm, hm2, Ne.symm hm, Ne.symm hm2]
    · simp only [he, hxd]
      simp
      apply List.ext_getElem?
      intro m
      simp only [List.getElem?_mapIdx, List.getElem?_set]
      by_cases hm : k = m
      · subst hm; simp [hk, hkn]
      · cases ys[m]? <;> simp [hm, Ne.symm hm]
  · by_cases hxd : x = d
    · subst hxd
      simp [hd, hxe]
      apply List.ext_getElem?
      intro m
      simp only [List.getElem?_mapIdx, List.getElem?_set]
      by_cases hm : i = m
      · subst hm; simp [hi, hin]
      · cases xs[m]? <;> simp [hm, Ne.symm hm]
    · cases S x with
      | none => simp [hxe, hxd]
      | some zs =>
        simp [hxe, hxd]
        exact List.ext_getElem? fun m => by simp

theorem mixed_get {S : SVecs V} {d i e k : Nat} {xs ys : List (Rec V)} {a b : Rec V} (hd : S d = some xs) (he : S e = some ys)
    (hi : xs[i]? = some a) (hk : ys[k]? = some b) (P : Fin n → Bool) :
    ∃ xs' ys', mixed S d i e k a b P d = some xs' ∧ mixed S d i e k a b P e = some ys' ∧ xs'[i]? = some (mix P a b) ∧ ys'[k]? = some (mix P b a) := by
  have hab : d = e → i = k → a = b := by
    intro h1 h2; subst h1 h2; rw [hd] at he; cases he; rw [hi] at hk; exact Option.some.inj hk
  refine ⟨_, _, by simp only [mixed, hd]; rfl, by simp only [mixed, he]; rfl, ?_, ?_⟩
  · simp only [List.getElem?_mapIdx, hi, Option.map_some]
    by_cases hc : d = e ∧ i = k
    · have := hab hc.1 hc.2; subst this; simp [mix_self]
    · simp [hc]
  · simp [List.getElem?_mapIdx, hk]

theorem swapFields_tri {E} {w : World V} {S : SVecs V} {d i e k : Nat} {xs ys : List (Rec V)} {a b : Rec V}
    (hd : S d = some xs) (he : S e = some ys) (hi : xs[i]? = some a) (hk : ys[k]? = some b) (js : List (Fin n)) (hjs : js.Nodup)
    (P : Fin n → Bool) (hP : ∀ j ∈ js, P j = false) (R : Rep w (mixed S d i e k a b P)) :
    Tri (swapFields d i e k js) w (fun _ w' => Rep w' (mixed S d i e k a b fun x => decide (x ∈ js) || P x)) E := by
  induction js generalizing w P with
  | nil => exact Tri.pure (by simpa using R)
  | cons j js ih =>
    obtain ⟨xs', ys', h1, h2, h3, h4⟩ := mixed_get hd he hi hk P
    rw [List.nodup_cons] at hjs
    refine Tri.seq (swapField_tri R h1 h2 h3 h4 j) fun _ w' R' => ?_
    have hPj : P j = false := hP j (by simp)
    have e1 : mix P a b j = a j := by simp [mix, hPj]
    have e2 : mix P b a j = b j := by simp [mix, hPj]
    rw [e1, e2, swapFieldS_mixed hd he hi hk] at R'
    refine (ih hjs.2 _ (fun j' hj' => ?_) R').mono (fun _ w'' R'' => ?_) fun _ h => h
    · have : j' ≠ j := fun h => hjs.1 (h ▸ hj')
      simp [this, hP j' (by simp [hj'])]
    · have : (fun x => decide (x ∈ js) || (decide (x = j) || P x)) = fun x => decide (x ∈ j :: js) || P x := by
        funext x; simp [Bool.or_assoc, Bool.or_left_comm, Bool.or_comm]
      rw [← this]; exact R''

theorem swapRef_tri {E} (hn : 0 < n) {w : World V} {S : SVecs V} (R : Rep w S) {d i e k : Nat} {xs ys : List (Rec V)}
    (hd : S d = some xs) (he : S e = some ys) (hi : i < xs.length) (hk : k < ys.length) :
    Tri (swapRef d i e k) w (fun _ w' => Rep w' (specSwapRef S d i e k)) E := by
  obtain ⟨p, hp, gp⟩ := R.some d _ hd
  obtain ⟨q, hq, gq⟩ := R.some e _ he
  refine Tri.seq (proxyAt_tri hn hp gp hi) fun _ _ h => ?_
  obtain ⟨rfl, rfl⟩ := h
  refine Tri.seq (proxyAt_tri hn hq gq hk) fun _ _ h => ?_
  obtain ⟨rfl, rfl⟩ := h
  have h1 : xs[i]? = some xs[i] := List.getElem?_eq_getElem hi
  have h2 : ys[k]? = some ys[k] := List.getElem?_eq_getElem hk
  refine (swapFields_tri hd he h1 h2 (List.finRange n) (List.nodup_finRange n) (fun _ => false) (fun _ _ => rfl)
    (by rw [mixed_none hd he h1 h2]; exact R)).mono (fun _ w' R' => ?_) fun _ h => h
  rw [← mixed_all hd he h1 h2]
  simpa using R'

/-! ### one step -/

theorem Post.rep_same {w w' : World V} {S : SVecs V} (R : Rep w S) {d need : Nat} {p : Parts V} {xs : List (Rec V)} (hd : S d = some xs)
    (h : Post w d p need xs w') : Rep w' S := by
  have := R.post h
  rwa [upd_self _ hd] at this

theorem exec_tri (hn : 0 < n) {w : World V} {S : SVecs V} (R : Rep w S) {op : Op V} (L : Legal S op)
    (hdef : usesDefault op = true → env.recDefault = env.fieldDefault) :
    Tri (exec env op) w (fun out w' => out = specOut S op ∧ Rep w' (specStep env S op)) (fun _ => MayThrow env) := by
  have unit : ∀ {m : M V Unit} {S' : SVecs V} {E : World V → Prop}, Tri m w (fun _ w' => Rep w' S') E → (∀ w', E w' → MayThrow env) →
      Tri (do m; pure .unit : M V (Out V)) w (fun out w' => out = .unit ∧ Rep w' S') (fun _ => MayThrow env) := by
    intro m S' E h hE
    exact Tri.seq (h.mono (fun _ _ h => h) hE) fun _ w' R' => Tri.pure ⟨rfl, R'⟩
  have pos : ∀ {m : M V Nat} {S' : SVecs V} {i : Nat}, Tri m w (fun r w' => r = i ∧ Rep w' S') (fun _ => MayThrow env) →
      Tri (do let r ← m; pure (.pos r) : M V (Out V)) w (fun out w' => out = .pos i ∧ Rep w' S') (fun _ => MayThrow env) := by
    intro m S' i h
    exact Tri.seq h fun _ w' R' => Tri.pure ⟨by rw [R'.1], R'.2⟩
  cases op with
  | defaultCtor d => exact unit (E := fun _ => MayThrow env) (show Tri (defaultCtor d) w _ _ from R.upd rfl (good_nil w.tick)) fun _ h => h
  | countValueCtor d k v => exact unit ((countValueCtor_tri k v).mono (fun _ _ h => R.upd h.choose_spec.1 h.choose_spec.2) fun _ h => h) fun _ h => h.1
  | countCtor d k =>
    refine unit ((countCtor_tri k).mono (fun _ w' h => ?_) fun _ h => h) fun _ h => h.1
    have := R.upd h.choose_spec.1 h.choose_spec.2
    rwa [← hdef rfl] at this
  | rangeCtor d vs ra => exact unit ((rangeCtor_tri hn vs ra).mono (fun _ _ h => R.upd h.choose_spec.1 h.choose_spec.2) fun _ h => h) fun _ h => h.1
  | copyCtor d s =>
    obtain ⟨ys, hs⟩ := Option.isSome_iff_exists.mp L.2
    obtain ⟨q, hq, gq⟩ := R.some s ys hs
    refine unit ((copyCtor_tri hq gq).mono (fun _ _ h => ?_) fun _ h => h) fun _ h => h.1
    have := R.upd h.choose_spec.1 h.choose_spec.2
    rwa [← hs] at this
  | moveCtor d s =>
    obtain ⟨ys, hs⟩ := Option.isSome_iff_exists.mp L.2
    obtain ⟨q, hq, gq⟩ := R.some s ys hs
    refine unit (E := fun _ => MayThrow env) ?_ fun _ h => h
    have R1 : Rep { w with vecs := upd w.vecs s (some fun _ => ⟨[], 0, w.tick⟩) } (upd S s (some [])) := R.upd rfl (good_nil w.tick)
    have R2 : Rep { w with vecs := upd (upd w.vecs s (some fun _ => ⟨[], 0, w.tick⟩)) d (some q) } (upd (upd S s (some [])) d (some ys)) := R1.upd rfl gq
    simp only [Tri, moveCtor, hq, specStep, hs]
    exact R2
  | dtor d => exact unit (E := fun _ => MayThrow env) (show Tri (dtor d) w _ _ from R.drop rfl) fun _ h => h
  | copyAssign d s =>
    obtain ⟨xs, hd⟩ := Option.isSome_iff_exists.mp L.1
    obtain ⟨ys, hs⟩ := Option.isSome_iff_exists.mp L.2
    obtain ⟨p, hp, gp⟩ := R.some d xs hd
    obtain ⟨q, hq, gq⟩ := R.some s ys hs
    refine unit ((copyAssign_tri hp gp hq gq).mono (fun _ _ h => ?_) fun _ h => h) fun _ h => h
    have := R.post h
    rwa [← hs] at this
  | moveAssign d s =>
    obtain ⟨xs, hd⟩ := Option.isSome_iff_exists.mp L.1
    obtain ⟨ys, hs⟩ := Option.isSome_iff_exists.mp L.2
    obtain ⟨p, hp, gp⟩ := R.some d xs hd
    obtain ⟨q, hq, gq⟩ := R.some s ys hs
    refine unit (E := fun _ => MayThrow env) ?_ fun _ h => h
    simp only [Tri, moveAssign, hp, hq, specStep]
    split
    · rename_i hds
      split at hds <;> cases hds
      · rename_i he; rw [if_pos he]; exact R
      · rename_i he; rw [if_neg he, hs]
        have R1 : Rep { w with vecs := upd w.vecs s (some fun _ => ⟨[], 0, w.tick⟩) } (upd S s (some [])) := R.upd rfl (good_nil w.tick)
        exact R1.upd rfl gq
    · rename_i hds; split at hds <;> cases hds
    · rename_i hds; split at hds <;> cases hds
  | emplace d i v =>
    obtain ⟨xs, hd, hi⟩ := L
    obtain ⟨p, hp, gp⟩ := R.some d xs hd
    refine pos ((emplace_tri hn hp gp hi v).mono (fun _ _ h => ⟨h.1, ?_⟩) fun _ h => h)
    simp only [specStep, hd, Option.map_some]; exact R.post h.2
  | emplaceBack d v =>
    obtain ⟨xs, hd⟩ := Option.isSome_iff_exists.mp L
    obtain ⟨p, hp, gp⟩ := R.some d xs hd
    refine unit ((emplaceBack_tri hp gp v).mono (fun _ _ h => ?_) fun _ h => h) fun _ h => h
    simp only [specStep, hd, Option.map_some]; exact R.post h
  | pushBack d v =>
    obtain ⟨xs, hd⟩ := Option.isSome_iff_exists.mp L
    obtain ⟨p, hp, gp⟩ := R.some d xs hd
    refine unit ((emplaceBack_tri hp gp v).mono (fun _ _ h => ?_) fun _ h => h) fun _ h => h
    simp only [specStep, hd, Option.map_some]; exact R.post h
  | erase d i =>
    obtain ⟨xs, hd, hi⟩ := L
    obtain ⟨p, hp, gp⟩ := R.some d xs hd
    refine pos ((erase_tri hn hp gp hi).mono (fun _ _ h => ⟨h.1, ?_⟩) fun _ h => h)
    simp only [specStep, hd, Option.map_some]; exact R.post h.2
  | insertVal d i v =>
    obtain ⟨xs, hd, hi⟩ := L
    obtain ⟨p, hp, gp⟩ := R.some d xs hd
    refine pos ((emplace_tri hn hp gp hi v).mono (fun _ _ h => ⟨h.1, ?_⟩) fun _ h => h)
    simp only [specStep, hd, Option.map_some]; exact R.post h.2
  | insertCount d i k v =>
    obtain ⟨xs, hd, hi⟩ := L
    obtain ⟨p, hp, gp⟩ := R.some d xs hd
    refine pos ((insertCount_tri hn hp gp hi k v).mono (fun _ _ h => ⟨h.1, ?_⟩) fun _ h => h)
    simp only [specStep, hd, Option.map_some]; exact R.post h.2
  | insertRange d i vs ra =>
    obtain ⟨xs, hd, hi⟩ := L
    obtain ⟨p, hp, gp⟩ := R.some d xs hd
    refine pos ((insertRange_tri hn hp gp hi vs ra).mono (fun _ _ h => ⟨h.1, ?_⟩) fun _ h => h)
    simp only [specStep, hd, Option.map_some]; exact R.post h.2
  | assignCount d tmp k v =>
    obtain ⟨xs, hd⟩ := Option.isSome_iff_exists.mp L.1
    obtain ⟨p, hp, gp⟩ := R.some d xs hd
    exact unit ((assignFrom_tri hp (R.none tmp L.2) (countValueCtor_tri k v)).mono (fun _ _ h => R.upd h.choose_spec.1 h.choose_spec.2) fun _ h => h) fun _ h => h.1
  | assignRange d tmp vs ra =>
    obtain ⟨xs, hd⟩ := Option.isSome_iff_exists.mp L.1
    obtain ⟨p, hp, gp⟩ := R.some d xs hd
    exact unit ((assignFrom_tri hp (R.none tmp L.2) (rangeCtor_tri hn vs ra)).mono (fun _ _ h => R.upd h.choose_spec.1 h.choose_spec.2) fun _ h => h) fun _ h => h.1
  | clear d =>
    obtain ⟨xs, hd⟩ := Option.isSome_iff_exists.mp L
    obtain ⟨p, hp, gp⟩ := R.some d xs hd
    exact unit (E := fun _ => MayThrow env) ((clear_tri hp).mono (fun _ _ h => R.post h) fun _ h => h) fun _ h => h
  | popBack d =>
    obtain ⟨xs, hd, hne⟩ := L
    obtain ⟨p, hp, gp⟩ := R.some d xs hd
    refine unit (E := fun _ => MayThrow env) ((popBack_tri hp gp hne).mono (fun _ _ h => ?_) fun _ h => h) fun _ h => h
    simp only [specStep, hd, Option.map_some]; exact R.post h
  | reserve d k =>
    obtain ⟨xs, hd⟩ := Option.isSome_iff_exists.mp L
    obtain ⟨p, hp, gp⟩ := R.some d xs hd
    exact unit ((reserve_tri hp gp k).mono (fun _ _ h => h.rep_same R hd) fun _ h => h) fun _ h => h
  | resize d k =>
    obtain ⟨xs, hd⟩ := Option.isSome_iff_exists.mp L
    obtain ⟨p, hp, gp⟩ := R.some d xs hd
    refine unit ((resizeWith_tri hp gp k env.fieldDefault).mono (fun _ _ h => ?_) fun _ h => h) fun _ h => h
    simp only [specStep, hd, Option.map_some, hdef rfl]; exact R.post h
  | resizeVal d k v =>
    obtain ⟨xs, hd⟩ := Option.isSome_iff_exists.mp L
    obtain ⟨p, hp, gp⟩ := R.some d xs hd
    refine unit ((resizeWith_tri hp gp k v).mono (fun _ _ h => ?_) fun _ h => h) fun _ h => h
    simp only [specStep, hd, Option.map_some]; exact R.post h
  | shrinkToFit d =>
    obtain ⟨xs, hd⟩ := Option.isSome_iff_exists.mp L
    obtain ⟨p, hp, gp⟩ := R.some d xs hd
    refine unit ((shrink_tri hp gp).mono (fun _ _ h => ?_) fun _ h => h) fun _ h => h
    have := R.upd h.choose_spec.1 h.choose_spec.2
    rwa [upd_self _ hd] at this
  | swap d e =>
    obtain ⟨xs, hd⟩ := Option.isSome_iff_exists.mp L.1
    obtain ⟨ys, he⟩ := Option.isSome_iff_exists.mp L.2
    obtain ⟨p, hp, gp⟩ := R.some d xs hd
    obtain ⟨q, hq, gq⟩ := R.some e ys he
    refine unit (E := fun _ => MayThrow env) ?_ fun _ h => h
    have R1 : Rep { w with vecs := upd w.vecs d (some q) } (upd S d (some ys)) := R.upd rfl gq
    have R2 : Rep { w with vecs := upd (upd w.vecs d (some q)) e (some p) } (upd (upd S d (some ys)) e (some xs)) := R1.upd rfl gp
    simp only [Tri, swap, hp, hq, specStep, hd, he]
    exact R2
  | assignElem d i v =>
    obtain ⟨xs, hd, hi⟩ := L
    obtain ⟨p, hp, gp⟩ := R.some d xs hd
    refine unit ((assignElem_tri hn hp gp hi v).mono (fun _ _ h => ?_) fun _ h => h) fun _ h => h
    simp only [specStep, hd, Option.map_some]; exact R.post h
  | assignRef d i e k =>
    obtain ⟨⟨xs, hd, hi⟩, ys, he, hk⟩ := L
    obtain ⟨p, hp, gp⟩ := R.some d xs hd
    obtain ⟨q, hq, gq⟩ := R.some e ys he
    refine unit ((assignRef_tri hn hp gp hi hq gq hk).mono (fun _ _ h => ?_) fun _ h => h) fun _ h => h
    simp only [specStep, hd, he, Option.map_some, Option.bind_some, List.getElem?_eq_getElem hk]; exact R.post h
  | swapRef d i e k =>
    obtain ⟨⟨xs, hd, hi⟩, ys, he, hk⟩ := L
    exact unit (E := fun _ => MayThrow env) (swapRef_tri hn R hd he hi hk) fun _ h => h
  | iterMove d i =>
    obtain ⟨xs, hd, hi⟩ := L
    obtain ⟨p, hp, gp⟩ := R.some d xs hd
    refine Tri.seq (iterMove_tri (env := env) hn hp gp hi) fun r w' h => Tri.pure ?_
    simp only [specOut, specStep, hd, Option.map_some, Option.bind_some, List.getElem?_eq_getElem hi]
    exact ⟨by rw [h.1], R.post h.2⟩
  | setField d i j x =>
    obtain ⟨xs, hd, hi⟩ := L
    obtain ⟨p, hp, gp⟩ := R.some d xs hd
    refine unit (E := fun _ => MayThrow env) ((setField_tri hp gp hi j x).mono (fun _ _ h => ?_) fun _ h => h) fun _ h => h
    simp only [specStep, hd, Option.map_some]; exact R.post h

/-- Operations on columns that keep the contents of columns whether they throw or not. -/
theorem apply_keeps {w : World V} {d : Nat} {p : Parts V} {xs : List (Rec V)} (hp : w.vecs d = some p) (g : Good p xs)
    {f : (j : Fin n) → Nat → Col (V j) → Col (V j)} (hf : ∀ j t, (f j t (p j)).data = (p j).data ∧ (f j t (p j)).data.length ≤ (f j t (p j)).cap) :
    ∀ w', apply env d f leftStrong w = .exn w' → ∃ p', w'.vecs = upd w.vecs d (some p') ∧ Good p' xs := by
  intro w' he
  obtain ⟨h1, h2, h3⟩ := forCols_cases (env := env) f leftStrong (List.finRange n) (List.nodup_finRange n) p w.tick
  unfold apply at he
  simp only [hp] at he
  cases hb : (forCols env f leftStrong (List.finRange n) p w.tick).2.2 with
  | false => simp [hb] at he
  | true =>
    simp only [hb, if_true] at he
    cases he
    refine ⟨_, rfl, ⟨fun j => ?_, fun j => ?_⟩⟩
    · rcases (h3 hb).2 j with ⟨t, h⟩ | h | ⟨_, h⟩
      · rw [h, (hf j t).1, g.data]
      · rw [h, g.data]
      · rw [h]; exact g.data j
    · rcases (h3 hb).2 j with ⟨t, h⟩ | h | ⟨_, h⟩
      · rw [h]; exact (hf j t).2
      · rw [h]; exact g.cap j
      · rw [h]; exact g.cap j

theorem exn_of_unit {m : M V Unit} {w w' : World V} {o : Out V} (h : (do m; pure o : M V (Out V)) w = .exn w') : m w = .exn w' := by
  rw [bind_apply] at h
  cases hm : m w with
  | ok a w1 => rw [hm] at h; cases h
  | exn w1 => rw [hm] at h; cases h; rfl
  | ub => rw [hm] at h; cases h

theorem Tri.exn {α} {m : M V α} {w w' : World V} {P E} (h : Tri m w P E) (he : m w = .exn w') : E w' := by
  unfold Tri at h; rw [he] at h; exact h

theorem strong_rep (hn : 0 < n) {w w' : World V} {S : SVecs V} (R : Rep w S) {op : Op V} (L : Legal S op) (hs : strong op = true)
    (he : exec env op w = .exn w') : Rep w' S := by
  cases op with
  | countValueCtor d k v => exact R.vecs ((countValueCtor_tri k v).exn (exn_of_unit he)).2
  | countCtor d k => exact R.vecs ((countCtor_tri k).exn (exn_of_unit he)).2
  | rangeCtor d vs ra => exact R.vecs ((rangeCtor_tri hn vs ra).exn (exn_of_unit he)).2
  | copyCtor d s =>
    obtain ⟨ys, hs⟩ := Option.isSome_iff_exists.mp L.2
    obtain ⟨q, hq, gq⟩ := R.some s ys hs
    exact R.vecs ((copyCtor_tri hq gq).exn (exn_of_unit he)).2
  | assignCount d tmp k v =>
    obtain ⟨xs, hd⟩ := Option.isSome_iff_exists.mp L.1
    obtain ⟨p, hp, gp⟩ := R.some d xs hd
    exact R.vecs ((assignFrom_tri hp (R.none tmp L.2) (countValueCtor_tri k v)).exn (exn_of_unit he)).2
  | assignRange d tmp vs ra =>
    obtain ⟨xs, hd⟩ := Option.isSome_iff_exists.mp L.1
    obtain ⟨p, hp, gp⟩ := R.some d xs hd
    exact R.vecs ((assignFrom_tri hp (R.none tmp L.2) (rangeCtor_tri hn vs ra)).exn (exn_of_unit he)).2
  | reserve d k =>
    obtain ⟨xs, hd⟩ := Option.isSome_iff_exists.mp L
    obtain ⟨p, hp, gp⟩ := R.some d xs hd
    obtain ⟨p', h1, h2⟩ := apply_keeps hp gp (fun j t => ⟨room_data _ _ _ _, by
      unfold Col.room
      split
      · exact gp.cap j
      · have := env.grow_ok (p j).cap k
        have := gp.cap j
        simp; omega⟩) w' (exn_of_unit he)
    have := R.upd h1 h2
    rwa [upd_self _ hd] at this
  | shrinkToFit d =>
    obtain ⟨xs, hd⟩ := Option.isSome_iff_exists.mp L
    obtain ⟨p, hp, gp⟩ := R.some d xs hd
    obtain ⟨p', h1, h2⟩ := apply_keeps hp gp (fun j t => by
      unfold Col.shrinkToFit
      split
      · exact ⟨rfl, gp.cap j⟩
      · exact ⟨rfl, (env.shrink_ok _ _ (gp.cap j)).1⟩) w' (exn_of_unit he)
    have := R.upd h1 h2
    rwa [upd_self _ hd] at this
  | _ => cases hs

/-- Columns that differ from those of `xs` only in element `i`. -/
theorem good_elem {p p' : Parts V} {xs : List (Rec V)} (g : Good p xs) {i : Nat} (hi : i < xs.length)
    (h : ∀ j, ∃ x, (p' j).data = (p j).data.set i x ∧ (p' j).cap = (p j).cap) : ∃ r : Rec V, Good p' (xs.set i r) := by
  have : ∃ r : Rec V, ∀ j, (p' j).data = (p j).data.set i (r j) ∧ (p' j).cap = (p j).cap := ⟨fun j => (h j).choose, fun j => (h j).choose_spec⟩
  obtain ⟨r, hr⟩ := this
  refine ⟨r, ⟨fun j => ?_, fun j => ?_⟩⟩
  · rw [(hr j).1, g.data, List.map_set]
  · rw [(hr j).1, (hr j).2, List.length_set]; exact g.cap j

theorem elemThrown_rep (hn : 0 < n) {w w' : World V} {S : SVecs V} (R : Rep w S) {op : Op V} (L : Legal S op) {d i : Nat}
    (hs : elemOf op = some (d, i)) (he : exec env op w = .exn w') : ∃ xs r, S d = some xs ∧ i < xs.length ∧ Rep w' (upd S d (some (xs.set i r))) := by
  have key : ∀ {xs : List (Rec V)} {p : Parts V} (hp : w.vecs d = some p) (g : Good p xs) (hi : i < xs.length) (x : (j : Fin n) → V j)
      (f : (j : Fin n) → Nat → Col (V j) → Col (V j)), (∀ j t, f j t (p j) = Col.set i (x j) (p j)) →
      ∀ w1, apply env d f (leftElem i) w = .exn w1 → ∃ p', w1.vecs = upd w.vecs d (some p') ∧ ∃ r, Good p' (xs.set i r) := by
    intro xs p hp g hi x f hf w1 h1
    obtain ⟨_, p', hw, hp'⟩ := (apply_tri (env := env) (left := leftElem i) (xs := xs.set i x) (need := 0) (f := f) hp (fun j t => by
      rw [hf]
      refine ⟨by simp [Col.set, g.data, List.map_set], by have := g.cap j; simpa [Col.set] using this, fun _ => ⟨rfl, rfl⟩⟩)).exn h1
    refine ⟨p', hw, good_elem g hi fun j => ?_⟩
    rcases hp' j with ⟨t, h⟩ | h | ⟨gg, h⟩
    · exact ⟨x j, by rw [h, hf]; exact ⟨rfl, rfl⟩⟩
    · refine ⟨(p j).data[i]'(by rw [g.len]; exact hi), ?_⟩
      rw [h]; simp
    · have hl : i < (p j).data.length := by rw [g.len]; exact hi
      refine ⟨gg.2 j ((p j).data[i]), ?_⟩
      rw [h]
      refine ⟨?_, rfl⟩
      simp only [leftElem]
      apply List.ext_getElem?
      intro m
      simp only [List.getElem?_modify, List.getElem?_set]
      by_cases hm : i = m
      · subst hm; simp [hl]
      · cases (p j).data[m]? <;> simp [hm]
  have done : ∀ {xs : List (Rec V)}, S d = some xs → i < xs.length → (∃ p', w'.vecs = upd w.vecs d (some p') ∧ ∃ r, Good p' (xs.set i r)) →
      ∃ xs r, S d = some xs ∧ i < xs.length ∧ Rep w' (upd S d (some (xs.set i r))) := by
    rintro xs hd hi ⟨p', h1, r, h2⟩
    exact ⟨xs, r, hd, hi, R.upd h1 h2⟩
  cases op with
  | assignElem d' i' v =>
    cases hs
    obtain ⟨xs, hd, hi⟩ := L
    obtain ⟨p, hp, gp⟩ := R.some d xs hd
    have he := exn_of_unit he
    refine done hd hi (key hp gp hi v (fun j _ c => Col.set i (v j) c) (fun _ _ => rfl) _ ?_)
    have h1 := proxyAt_tri (E := fun _ => False) hn hp gp hi
    unfold assignElem at he
    rw [bind_apply] at he
    unfold Tri at h1
    cases hm : proxyAt d i w with
    | ok a w1 => rw [hm] at he h1; rw [← h1.2] at he; exact he
    | exn w1 => rw [hm] at h1; exact h1.elim
    | ub => rw [hm] at h1; exact h1.elim
  | assignRef d' i' e k =>
    cases hs
    obtain ⟨⟨xs, hd, hi⟩, ys, hs', hk⟩ := L
    obtain ⟨p, hp, gp⟩ := R.some d xs hd
    obtain ⟨q, hq, gq⟩ := R.some e ys hs'
    have he := exn_of_unit he
    have hr : ∀ j, (q j).data[k]? = some (ys[k] j) := fun j => by rw [gq.data]; simp [hk]
    refine done hd hi (key hp gp hi ys[k] (fun j _ c => match (q j).data[k]? with | some x => Col.set i x c | none => c)
      (fun j _ => by rw [hr]) _ ?_)
    have h1 := proxyAt_tri (E := fun _ => False) hn hp gp hi
    have h2 := proxyAt_tri (E := fun _ => False) hn hq gq hk
    unfold assignRef at he
    rw [bind_apply] at he
    unfold Tri at h1 h2
    cases hm : proxyAt d i w with
    | ok a w1 =>
      rw [hm] at he h1; rw [← h1.2] at he
      cases hm2 : proxyAt e k w with
      | ok a w1 =>
        dsimp only at he
        rw [bind_apply, hm2] at he; rw [hm2] at h2; rw [← h2.2, ← h2.1] at he; exact he
      | exn w1 => rw [hm2] at h2; exact h2.elim
      | ub => rw [hm2] at h2; exact h2.elim
    | exn w1 => rw [hm] at h1; exact h1.elim
    | ub => rw [hm] at h1; exact h1.elim
  | _ => cases hs

theorem Reach.rep (hn : 0 < n) {w : World V} {S : SVecs V} (h : Reach env w S) : Rep w S := by
  induction h with
  | init => exact ⟨fun _ _ h => (by cases h), fun _ _ => rfl⟩
  | step h L hd he ih =>
    have := exec_tri (env := env) hn ih L hd
    unfold Tri at this
    rw [he] at this
    exact this.2
  | thrown h L hs he ih => exact strong_rep hn ih L hs he
  | elemThrown h L hs he hr ih =>
    obtain ⟨xs, r', hd, hi, R⟩ := elemThrown_rep hn ih L hs he
    obtain ⟨p, hp, gp⟩ := R.some _ _ (upd_same _ _ _)
    have h1 := elem_tri (E := fun _ => False) hn hp gp (by rw [List.length_set]; exact hi)
    unfold Tri at h1
    rw [hr] at h1
    rw [hd, Option.map_some, h1.1]
    simpa using R

end AnyAny.Dpv
