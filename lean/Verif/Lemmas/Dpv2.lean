import Verif.Lemmas.Dpv
/-
Every operation does on the columns what `std::vector<T>` does on the records.
-/
namespace AnyAny.Dpv

variable {n : Nat} {V : Fin n → Type} {env : Env V}

section ops
variable {w : World V} {d : Nat} {p : Parts V} {xs : List (Rec V)}

theorem get_tri {E} (hp : w.vecs d = some p) : Tri (get d) w (fun a w' => p = a ∧ w = w') E := by
  simp [Tri, get, hp]

theorem size_tri {E} (hn : 0 < n) (hp : w.vecs d = some p) (g : Good p xs) : Tri (size d) w (fun a w' => a = xs.length ∧ w = w') E :=
  Tri.seq (get_tri hp) fun _ _ h => by obtain ⟨rfl, rfl⟩ := h; exact Tri.pure ⟨g.size hn, rfl⟩

theorem iteratorAt_tri {E} {i : Nat} (hn : 0 < n) (hp : w.vecs d = some p) (g : Good p xs) (hi : i ≤ xs.length) :
    Tri (iteratorAt d i) w (fun _ w' => w = w') E :=
  Tri.seq (size_tri hn hp g) fun _ _ h => by
    obtain ⟨rfl, rfl⟩ := h
    exact Tri.ite (fun _ => Tri.pure rfl) fun h => absurd hi h

theorem positions_tri {E} {i : Nat} (hp : w.vecs d = some p) (g : Good p xs) (hi : i ≤ xs.length) :
    Tri (positions d i) w (fun _ w' => w = w') E :=
  Tri.seq (get_tri hp) fun _ _ h => by
    obtain ⟨rfl, rfl⟩ := h
    exact Tri.ite (fun _ => Tri.pure rfl) fun h => absurd (fun j => by rw [g.len]; exact hi) h

theorem elem_tri {E} {i : Nat} (hn : 0 < n) (hp : w.vecs d = some p) (g : Good p xs) (hi : i < xs.length) :
    Tri (elem d i) w (fun a w' => a = xs[i] ∧ w = w') E :=
  Tri.seq (get_tri hp) fun _ _ h => by
    obtain ⟨rfl, rfl⟩ := h
    refine Tri.ite (fun _ => ?_) fun h => absurd (by rw [g.size hn]; exact hi) h
    rw [g.read hi]; exact Tri.pure ⟨rfl, rfl⟩

theorem view_tri {E} (j : Fin n) (hp : w.vecs d = some p) (g : Good p xs) :
    Tri (view d j) w (fun a w' => a = xs.map (· j) ∧ w = w') E :=
  Tri.seq (get_tri hp) fun _ _ h => by obtain ⟨rfl, rfl⟩ := h; exact Tri.pure ⟨g.data j, rfl⟩

theorem proxyAt_tri {E} {i : Nat} (hn : 0 < n) (hp : w.vecs d = some p) (g : Good p xs) (hi : i < xs.length) :
    Tri (proxyAt d i) w (fun a w' => p = a ∧ w = w') E :=
  Tri.seq (get_tri hp) fun _ _ h => by
    obtain ⟨rfl, rfl⟩ := h
    refine Tri.ite (fun _ => Tri.pure ⟨rfl, rfl⟩) fun h => absurd ⟨?_, fun j => ?_⟩ h
    · rw [g.size hn]; exact hi
    · rw [g.len]; exact hi

theorem apply_post (hp : w.vecs d = some p) {f : (j : Fin n) → Nat → Col (V j) → Col (V j)} {left} {ys : List (Rec V)} {need : Nat}
    (hf : ∀ j t, (f j t (p j)).data = ys.map (· j) ∧ (f j t (p j)).data.length ≤ (f j t (p j)).cap ∧
      (need ≤ (p j).cap → (f j t (p j)).buf = (p j).buf ∧ (f j t (p j)).cap = (p j).cap)) :
    Tri (apply env d f left) w (fun _ w' => Post w d p need ys w') (fun _ => MayThrow env) :=
  (apply_tri hp hf).mono (fun _ _ h => h) fun _ h => h.1

theorem emplaceBack_tri (hp : w.vecs d = some p) (g : Good p xs) (v : Rec V) :
    Tri (emplaceBack env d v) w (fun _ w' => Post w d p (xs.length + 1) (xs ++ [v]) w') (fun _ => MayThrow env) := by
  refine apply_post hp fun j t => ⟨?_, ?_, fun h => ?_⟩
  · simp [Col.pushBack, g.data]
  · have := room_cap env.grow_ok ((p j).data.length + 1) t (p j)
    simpa [Col.pushBack] using this
  · rw [← g.len j] at h
    simp [Col.pushBack, room_eq _ _ h]

theorem insert_post {i : Nat} (hp : w.vecs d = some p) (g : Good p xs) (hi : i ≤ xs.length) (vs : List (Rec V)) :
    Tri (insertCols env d i fun j => vs.map (· j)) w
      (fun _ w' => Post w d p (xs.length + vs.length) (xs.take i ++ vs ++ xs.drop i) w') (fun _ => MayThrow env) := by
  refine Tri.seq (positions_tri hp g hi) fun _ _ h => ?_
  subst h
  refine apply_post hp fun j t => ⟨?_, ?_, fun h => ?_⟩
  · simp [Col.insert, g.data]
  · have := room_cap env.grow_ok ((p j).data.length + (vs.map (· j)).length) t (p j)
    simp [Col.insert, g.len] at this ⊢; omega
  · have h : (p j).data.length + (vs.map (· j)).length ≤ (p j).cap := by rw [g.len j, List.length_map]; exact h
    simp only [Col.insert, room_eq _ _ h, and_self]

theorem insertResult_tri {i : Nat} {need : Nat} {ys : List (Rec V)} {m : M V Unit} (hn : 0 < n) (hp : w.vecs d = some p) (g : Good p xs)
    (hi : i ≤ xs.length) (hi' : i ≤ ys.length) (hm : Tri m w (fun _ w' => Post w d p need ys w') (fun _ => MayThrow env)) :
    Tri (do iteratorAt d i; m; iteratorAt d i; pure i : M V Nat) w (fun r w' => r = i ∧ Post w d p need ys w') (fun _ => MayThrow env) := by
  refine Tri.seq (iteratorAt_tri hn hp g hi) fun _ _ h => ?_
  subst h
  refine Tri.seq hm fun _ w' h => ?_
  obtain ⟨p', h1, h2, _⟩ := h.get
  exact Tri.seq (iteratorAt_tri hn h1 h2 hi') fun _ _ h' => by subst h'; exact Tri.pure ⟨rfl, h⟩

theorem emplace_tri {i : Nat} (hn : 0 < n) (hp : w.vecs d = some p) (g : Good p xs) (hi : i ≤ xs.length) (v : Rec V) :
    Tri (emplace env d i v) w (fun r w' => r = i ∧ Post w d p (xs.length + 1) (xs.take i ++ [v] ++ xs.drop i) w') (fun _ => MayThrow env) :=
  insertResult_tri hn hp g hi (by simp; omega) (insert_post hp g hi [v])

theorem insertCount_tri {i : Nat} (hn : 0 < n) (hp : w.vecs d = some p) (g : Good p xs) (hi : i ≤ xs.length) (k : Nat) (v : Rec V) :
    Tri (insertCount env d i k v) w
      (fun r w' => r = i ∧ Post w d p (xs.length + k) (xs.take i ++ List.replicate k v ++ xs.drop i) w') (fun _ => MayThrow env) := by
  refine insertResult_tri hn hp g hi (by simp; omega) ?_
  have := insert_post (env := env) hp g hi (List.replicate k v)
  simpa only [List.map_replicate, List.length_replicate] using this

theorem reserve_tri (hp : w.vecs d = some p) (g : Good p xs) (k : Nat) :
    Tri (reserve env d k) w (fun _ w' => Post w d p k xs w') (fun _ => MayThrow env) := by
  refine apply_post hp fun j t => ⟨?_, ?_, fun h => ?_⟩
  · simp [Col.reserve, room_data, g.data]
  · unfold Col.reserve Col.room
    split
    · exact g.cap j
    · have := env.grow_ok (p j).cap k
      have := g.cap j
      show (p j).data.length ≤ env.grow (p j).cap k
      omega
  · simp [Col.reserve, room_eq _ _ h]

theorem emplaceBackAll_tri (hp : w.vecs d = some p) (g : Good p xs) (vs : List (Rec V)) :
    Tri (emplaceBackAll env d vs) w (fun _ w' => Post w d p (xs.length + vs.length) (xs ++ vs) w') (fun _ => MayThrow env) := by
  induction vs generalizing w p xs with
  | nil => exact Tri.pure ⟨p, (upd_self _ hp).symm, by simpa using g, fun _ => SameBufs.refl p⟩
  | cons v vs ih =>
    refine Tri.seq (emplaceBack_tri hp g v) fun _ w' h => ?_
    obtain ⟨p', h1, h2, h3⟩ := h
    have := ih (w := w') (by rw [h1, upd_same]) h2
    refine this.mono (fun _ w'' h' => ?_) fun _ h' => h'
    have h' : Post w' d p' ((xs ++ [v]).length + vs.length) (xs ++ v :: vs) w'' := by
      simpa using h'
    refine Post.trans h1 (fun hk => h3 (Nat.le_trans ?_ hk)) ?_ h'
    · simp
    · simp; omega

theorem emplaceAll_tri {i : Nat} (hn : 0 < n) (hp : w.vecs d = some p) (g : Good p xs) (hi : i < xs.length) (vs : List (Rec V)) :
    Tri (emplaceAll env d i vs) w
      (fun _ w' => Post w d p (xs.length + vs.length) (xs.take (i + 1) ++ vs ++ xs.drop (i + 1)) w') (fun _ => MayThrow env) := by
  induction vs generalizing w p xs i with
  | nil => exact Tri.pure ⟨p, (upd_self _ hp).symm, by simpa using g, fun _ => SameBufs.refl p⟩
  | cons v vs ih =>
    refine Tri.seq (emplace_tri hn hp g (i := i + 1) (by omega) v) fun r w' h => ?_
    obtain ⟨rfl, p', h1, h2, h3⟩ := h
    have hl : (xs.take (i + 1)).length = i + 1 := by simp; omega
    have := ih (w := w') (i := i + 1) (by rw [h1, upd_same]) h2 (by simp; omega)
    refine this.mono (fun _ w'' h' => ?_) fun _ h' => h'
    have e : (xs.take (i + 1) ++ [v] ++ xs.drop (i + 1)).take (i + 1 + 1) ++ vs ++ (xs.take (i + 1) ++ [v] ++ xs.drop (i + 1)).drop (i + 1 + 1)
        = xs.take (i + 1) ++ v :: vs ++ xs.drop (i + 1) := by
      have hl2 : (xs.take (i + 1) ++ [v]).length = i + 1 + 1 := by simp; omega
      rw [List.take_append_of_le_length (by omega), List.take_of_length_le (by omega), List.drop_append_of_le_length (by omega),
        List.drop_of_length_le (l := xs.take (i + 1) ++ [v]) (by omega)]
      simp
    rw [e] at h'
    refine Post.trans h1 (fun hk => h3 (Nat.le_trans ?_ hk)) ?_ h'
    · simp
    · simp; omega

theorem insertRange_tri {i : Nat} (hn : 0 < n) (hp : w.vecs d = some p) (g : Good p xs) (hi : i ≤ xs.length) (vs : List (Rec V)) (ra : Bool) :
    Tri (insertRange env d i vs ra) w
      (fun r w' => r = i ∧ Post w d p (xs.length + vs.length) (xs.take i ++ vs ++ xs.drop i) w') (fun _ => MayThrow env) := by
  refine Tri.seq (iteratorAt_tri hn hp g hi) fun _ _ h => ?_
  subst h
  refine Tri.seq (size_tri hn hp g) fun _ _ h => ?_
  obtain ⟨rfl, rfl⟩ := h
  have fin : ∀ {w' : World V}, Post w d p (xs.length + vs.length) (xs.take i ++ vs ++ xs.drop i) w' →
      Tri (do iteratorAt d i; pure i : M V Nat) w' (fun r w' => r = i ∧ Post w d p (xs.length + vs.length) (xs.take i ++ vs ++ xs.drop i) w')
        (fun _ => MayThrow env) := by
    intro w' h
    obtain ⟨p', h1, h2, _⟩ := h.get
    exact Tri.seq (iteratorAt_tri hn h1 h2 (by simp; omega)) fun _ _ h' => by subst h'; exact Tri.pure ⟨rfl, h⟩
  refine Tri.ite (fun he => ?_) fun hne => ?_
  · subst he
    refine Tri.seq (emplaceBackAll_tri hp g vs) fun _ w' h => fin ?_
    simpa using h
  · -- reserve
    have hres : Tri (reserveFor env d (xs.length + vs.length) ra) w
        (fun _ w' => Post w d p (xs.length + vs.length) xs w') (fun _ => MayThrow env) := by
      cases ra with
      | true => exact reserve_tri hp g _
      | false => exact Tri.pure ⟨p, (upd_self _ hp).symm, g, fun _ => SameBufs.refl p⟩
    refine Tri.seq hres fun _ w1 h => ?_
    obtain ⟨p1, h1, h2, h3⟩ := h
    have hp1 : w1.vecs d = some p1 := by rw [h1, upd_same]
    cases vs with
    | nil => exact fin ⟨p1, h1, by simpa using h2, h3⟩
    | cons v vs =>
      refine Tri.seq (Q := fun _ w' => Post w d p (xs.length + (v :: vs).length) (xs.take i ++ v :: vs ++ xs.drop i) w') ?_ fun _ w' h => fin h
      refine Tri.seq (emplace_tri hn hp1 h2 hi v) fun r w2 h => ?_
      obtain ⟨rfl, p2, g1, g2, g3⟩ := h
      have := emplaceAll_tri (env := env) (w := w2) (i := r) hn (by rw [g1, upd_same]) g2 (by simp; omega) vs
      refine this.mono (fun _ w3 h' => ?_) fun _ h' => h'
      have e : (xs.take r ++ [v] ++ xs.drop r).take (r + 1) ++ vs ++ (xs.take r ++ [v] ++ xs.drop r).drop (r + 1)
          = xs.take r ++ v :: vs ++ xs.drop r := by
        have hl2 : (xs.take r ++ [v]).length = r + 1 := by simp; omega
        rw [List.take_append_of_le_length (by omega), List.take_of_length_le (by omega), List.drop_append_of_le_length (by omega),
          List.drop_of_length_le (l := xs.take r ++ [v]) (by omega)]
        simp
      rw [e] at h'
      refine Post.trans h1 h3 (Nat.le_refl _) (Post.trans g1 (fun hk => g3 (Nat.le_trans ?_ hk)) ?_ h')
      · simp
      · simp; omega

theorem erase_tri {i : Nat} (hn : 0 < n) (hp : w.vecs d = some p) (g : Good p xs) (hi : i < xs.length) :
    Tri (erase env d i) w (fun r w' => r = i ∧ Post w d p 0 (xs.eraseIdx i) w') (fun _ => MayThrow env) := by
  refine Tri.seq (get_tri hp) fun _ _ h => ?_
  obtain ⟨rfl, rfl⟩ := h
  refine Tri.ite (fun _ => ?_) fun h => absurd (fun j => by rw [g.len]; exact hi) h
  refine Tri.seq (apply_post (ys := xs.eraseIdx i) (need := 0) hp fun j t => ⟨?_, ?_, fun _ => ⟨rfl, rfl⟩⟩) fun _ w' h => ?_
  · simp only [Col.erase, g.data]
    rw [List.eraseIdx_eq_take_drop_succ, List.eraseIdx_eq_take_drop_succ]
    simp
  · have := g.cap j
    have h2 := List.length_eraseIdx_le (p j).data i
    simp only [Col.erase]; omega
  · obtain ⟨p', h1, h2, _⟩ := h.get
    have : i ≤ (xs.eraseIdx i).length := by rw [List.length_eraseIdx]; split <;> omega
    exact Tri.seq (iteratorAt_tri hn h1 h2 this) fun _ _ h' => by subst h'; exact Tri.pure ⟨rfl, h⟩

theorem resizeWith_tri (hp : w.vecs d = some p) (g : Good p xs) (k : Nat) (v : Rec V) :
    Tri (apply env d (fun j t c => Col.resize env.grow k (v j) t c) leftStrong) w
      (fun _ w' => Post w d p k (xs.take k ++ List.replicate (k - xs.length) v) w') (fun _ => MayThrow env) := by
  refine apply_post hp fun j t => ⟨?_, ?_, fun h => ?_⟩
  · simp [Col.resize, g.data]
  · have := room_cap env.grow_ok k t (p j)
    simp [Col.resize, g.len] at this ⊢; omega
  · simp [Col.resize, room_eq _ _ h]

theorem shrink_tri (hp : w.vecs d = some p) (g : Good p xs) :
    Tri (shrinkToFit env d) w (fun _ w' => ∃ p', w'.vecs = upd w.vecs d (some p') ∧ Good p' xs) (fun _ => MayThrow env) := by
  have hall : ∀ j t, (Col.shrinkToFit env.shrink t (p j)).data = xs.map (· j) ∧
      (Col.shrinkToFit env.shrink t (p j)).data.length ≤ (Col.shrinkToFit env.shrink t (p j)).cap := by
    intro j t
    unfold Col.shrinkToFit
    split
    · exact ⟨g.data j, g.cap j⟩
    · exact ⟨g.data j, (env.shrink_ok _ _ (g.cap j)).1⟩
  obtain ⟨h1, h2, h3⟩ := forCols_cases (env := env) (fun j t (c : Col (V j)) => Col.shrinkToFit env.shrink t c) leftStrong
    (List.finRange n) (List.nodup_finRange n) p w.tick
  unfold Tri shrinkToFit apply
  simp only [hp]
  cases hb : (forCols env (fun j t (c : Col (V j)) => Col.shrinkToFit env.shrink t c) leftStrong (List.finRange n) p w.tick).2.2 with
  | true => exact (h3 hb).1
  | false =>
    have h4 := h2 hb
    refine ⟨_, rfl, ⟨fun j => ?_, fun j => ?_⟩⟩
    · obtain ⟨t', h5⟩ := h4 j (List.mem_finRange j)
      rw [h5]; exact (hall j t').1
    · obtain ⟨t', h5⟩ := h4 j (List.mem_finRange j)
      rw [h5]; exact (hall j t').2

theorem applyNoexcept_tri {E} (hp : w.vecs d = some p) {f : (j : Fin n) → Col (V j) → Col (V j)} {ys : List (Rec V)}
    (hf : ∀ j, (f j (p j)).data = ys.map (· j) ∧ (f j (p j)).data.length ≤ (f j (p j)).cap ∧ (f j (p j)).buf = (p j).buf ∧ (f j (p j)).cap = (p j).cap) :
    Tri (applyNoexcept d f) w (fun _ w' => Post w d p 0 ys w') E :=
  Tri.seq (get_tri hp) fun _ _ h => by
    obtain ⟨rfl, rfl⟩ := h
    exact ⟨_, rfl, ⟨fun j => (hf j).1, fun j => (hf j).2.1⟩, fun _ j => (hf j).2.2⟩

theorem clear_tri {E} (hp : w.vecs d = some p) : Tri (clear d) w (fun _ w' => Post w d p 0 [] w') E :=
  applyNoexcept_tri hp fun j => ⟨rfl, Nat.zero_le _, rfl, rfl⟩

theorem popBack_tri {E} (hp : w.vecs d = some p) (g : Good p xs) (hne : xs ≠ []) :
    Tri (popBack d) w (fun _ w' => Post w d p 0 xs.dropLast w') E := by
  refine Tri.seq (get_tri hp) fun _ _ h => ?_
  obtain ⟨rfl, rfl⟩ := h
  refine Tri.ite (fun _ => ?_) fun h => absurd (fun j => ?_) h
  · refine applyNoexcept_tri hp fun j => ⟨?_, ?_, rfl, rfl⟩
    · simp [Col.popBack, g.data, List.map_dropLast]
    · have := g.cap j
      simp only [Col.popBack, List.length_dropLast]; omega
  · rw [g.data]; simpa using hne

theorem assignElem_tri {i : Nat} (hn : 0 < n) (hp : w.vecs d = some p) (g : Good p xs) (hi : i < xs.length) (v : Rec V) :
    Tri (assignElem env d i v) w (fun _ w' => Post w d p 0 (xs.set i v) w') (fun _ => MayThrow env) := by
  refine Tri.seq (proxyAt_tri hn hp g hi) fun _ _ h => ?_
  obtain ⟨rfl, rfl⟩ := h
  refine apply_post hp fun j t => ⟨?_, ?_, fun _ => ⟨rfl, rfl⟩⟩
  · simp [Col.set, g.data, List.map_set]
  · have := g.cap j; simpa [Col.set] using this

theorem assignRef_tri {i e k : Nat} {q : Parts V} {ys : List (Rec V)} (hn : 0 < n) (hp : w.vecs d = some p) (g : Good p xs) (hi : i < xs.length)
    (hq : w.vecs e = some q) (g' : Good q ys) (hk : k < ys.length) :
    Tri (assignRef env d i e k) w (fun _ w' => Post w d p 0 (xs.set i ys[k]) w') (fun _ => MayThrow env) := by
  refine Tri.seq (proxyAt_tri hn hp g hi) fun _ _ h => ?_
  obtain ⟨rfl, rfl⟩ := h
  refine Tri.seq (proxyAt_tri hn hq g' hk) fun _ _ h => ?_
  obtain ⟨rfl, rfl⟩ := h
  have hr : ∀ j, (q j).data[k]? = some (ys[k] j) := fun j => by
    rw [g'.data]; simp [hk]
  refine apply_post hp fun j t => ?_
  simp only [hr j]
  refine ⟨?_, ?_, fun _ => ⟨rfl, rfl⟩⟩
  · simp [Col.set, g.data, List.map_set]
  · have := g.cap j; simpa [Col.set] using this

theorem iterMove_tri {E} {i : Nat} (hn : 0 < n) (hp : w.vecs d = some p) (g : Good p xs) (hi : i < xs.length) :
    Tri (iterMove env d i) w
      (fun r w' => r = xs[i] ∧ Post w d p 0 (xs.modify i fun r j => env.movedFrom j (r j)) w') E := by
  refine Tri.seq (proxyAt_tri hn hp g hi) fun _ _ h => ?_
  obtain ⟨rfl, rfl⟩ := h
  rw [g.read hi]
  refine Tri.seq (applyNoexcept_tri (ys := xs.modify i fun r j => env.movedFrom j (r j)) hp fun j => ⟨?_, ?_, rfl, rfl⟩) fun _ w' h => Tri.pure ⟨rfl, h⟩
  · show (p j).data.modify i (env.movedFrom j) = _
    rw [g.data]
    apply List.ext_getElem?
    intro m
    simp only [List.getElem?_modify, List.getElem?_map]
    cases hm : xs[m]? <;> simp
    split <;> rfl
  · have := g.cap j; simpa using this

theorem setField_tri {E} {i : Nat} (hp : w.vecs d = some p) (g : Good p xs) (hi : i < xs.length) (j : Fin n) (x : V j) :
    Tri (setField d i j x) w (fun _ w' => Post w d p 0 (xs.modify i fun r => setRec r j x) w') E := by
  refine Tri.seq (get_tri hp) fun _ _ h => ?_
  obtain ⟨rfl, rfl⟩ := h
  refine Tri.ite (fun _ => ?_) fun h => absurd (by rw [g.len]; exact hi) h
  refine ⟨_, rfl, ⟨fun k => ?_, fun k => ?_⟩, fun _ k => ?_⟩
  · by_cases hk : k = j
    · subst hk
      rw [setP_same]
      simp only [Col.set, g.data]
      apply List.ext_getElem?
      intro m
      simp only [List.getElem?_modify, List.getElem?_map, List.getElem?_set, List.length_map]
      by_cases hm : i = m
      · subst hm; simp [hi, setRec]
      · cases hx : xs[m]? <;> simp [hm]
    · rw [setP_other _ _ hk, g.data]
      apply List.ext_getElem?
      intro m
      simp only [List.getElem?_modify, List.getElem?_map]
      by_cases hm : i = m
      · subst hm; simp [hi, setRec, hk]
      · cases hx : xs[m]? <;> simp [hm]
  · by_cases hk : k = j
    · subst hk; rw [setP_same]; have := g.cap k; simpa [Col.set] using this
    · rw [setP_other _ _ hk]; exact g.cap k
  · by_cases hk : k = j
    · subst hk; rw [setP_same]; exact ⟨rfl, rfl⟩
    · rw [setP_other _ _ hk]; exact ⟨rfl, rfl⟩

end ops

end AnyAny.Dpv
