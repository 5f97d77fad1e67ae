import Verif.Props.DpvFine2
import Verif.Lemmas.Dpv
/-
C117: what threads compute, operation by operation.
-/
namespace AnyAny.DpvFine

open AnyAny.Dpv

variable {n : Nat} {V : Fin n → Type} {α : Type}

/-! ### executions of one thread -/

/-- `Alone` from the front. -/
def go : List (Choice V) → Vecs V → Code V α → Option (Vecs V × Code V α)
  | [], v, c => some (v, c)
  | ch :: chs, v, c => (step ch v c).bind fun x => go chs x.1 x.2

theorem go_append (l l' : List (Choice V)) (v : Vecs V) (c : Code V α) : go (l ++ l') v c = (go l v c).bind fun x => go l' x.1 x.2 := by
  induction l generalizing v c with
  | nil => rfl
  | cons ch l ih =>
    simp only [List.cons_append, go]
    cases step ch v c with
    | none => rfl
    | some x => exact ih x.1 x.2

theorem go_of_alone {v u : Vecs V} {c c' : Code V α} {chs : List (Choice V)} (h : Alone v c chs u c') : go chs v c = some (u, c') := by
  induction h with
  | refl => rfl
  | step _ hs ih => simp [go_append, ih, go, hs]

theorem alone_of_go {c c' : Code V α} (chs : List (Choice V)) : ∀ {v u : Vecs V} {c0 : Code V α} {l : List (Choice V)} {v0 : Vecs V}, Alone v0 c0 l v c →
    go chs v c = some (u, c') → Alone v0 c0 (l ++ chs) u c' := by
  induction chs generalizing c with
  | nil => intro v u c0 l v0 h hg; cases hg; simpa using h
  | cons ch chs ih =>
    intro v u c0 l v0 h hg
    simp only [go] at hg
    cases hs : step ch v c with
    | none => simp [hs] at hg
    | some x =>
      rw [hs] at hg
      have := ih (.step h (v'' := x.1) (c'' := x.2) hs) hg
      simpa using this

/-- Ended: with a result, or with undefined behaviour. -/
def Code.Ended : Code V α → Prop
  | .ret _ | .ub => True
  | _ => False

theorem go_ret {chs : List (Choice V)} {v u : Vecs V} {a : α} {c : Code V α} (h : go chs v (.ret a) = some (u, c)) : u = v ∧ c = .ret a := by
  cases chs with
  | nil => cases h; exact ⟨rfl, rfl⟩
  | cons ch chs => cases h

theorem go_ub {chs : List (Choice V)} {v u : Vecs V} {c : Code V α} (h : go chs v .ub = some (u, c)) : u = v ∧ c = .ub := by
  cases chs with
  | nil => cases h; exact ⟨rfl, rfl⟩
  | cons ch chs => cases h

theorem step_bind {β : Type} {f : α → Code V β} {ch : Choice V} {v : Vecs V} {c : Code V α} (hc : ¬ c.Ended) :
    step ch v (c.bind f) = (step ch v c).map fun x => (x.1, x.2.bind f) := by
  cases c with
  | ret a => exact absurd trivial hc
  | ub => exact absurd trivial hc
  | col d j k => simp only [Code.bind, step]; cases v d <;> rfl
  | read d j i k => simp only [Code.bind, step]; cases (v d).bind fun p => (p j).data[i]? <;> rfl
  | write d j i x k =>
    simp only [Code.bind, step]
    cases v d with
    | none => rfl
    | some p => simp only; split <;> rfl
  | call j k => rfl
  | whole op k => simp only [Code.bind, step]; cases exec ch.env op ⟨v, ch.tick⟩ <;> rfl

theorem ended_bind {β : Type} {f : α → Code V β} {c : Code V α} (h : (c.bind f).Ended) : c.Ended := by
  cases c <;> first | trivial | exact h

/-- Executions of one code after the other. -/
theorem go_bind {β : Type} {f : α → Code V β} (chs : List (Choice V)) : ∀ {c : Code V α} {v u : Vecs V} {c' : Code V β},
    go chs v (c.bind f) = some (u, c') → c'.Ended →
    (∃ l l' w a, go l v c = some (w, .ret a) ∧ go l' w (f a) = some (u, c')) ∨ c' = .ub ∧ go chs v c = some (u, .ub) := by
  induction chs with
  | nil =>
    intro c v u c' h he
    cases h
    have := ended_bind he
    cases c with
    | ret a => exact .inl ⟨[], [], v, a, rfl, rfl⟩
    | ub => exact .inr ⟨rfl, rfl⟩
    | _ => exact absurd this (fun h => h)
  | cons ch chs ih =>
    intro c v u c' h he
    by_cases hc : c.Ended
    · cases c with
      | ret a => exact .inl ⟨[], ch :: chs, v, a, rfl, h⟩
      | ub => cases h
      | _ => exact absurd hc (fun h => h)
    · simp only [go, step_bind hc] at h ⊢
      cases hs : step ch v c with
      | none => simp [hs] at h
      | some x =>
        rw [hs] at h
        rcases ih h he with ⟨l, l', w, a, h1, h2⟩ | ⟨h1, h2⟩
        · exact .inl ⟨ch :: l, l', w, a, by simpa [go, hs] using h1, h2⟩
        · exact .inr ⟨h1, h2⟩

/-- No operations on whole containers. -/
def Code.NoWhole : Code V α → Prop
  | .ret _ | .ub => True
  | .col _ _ k => ∀ s, (k s).NoWhole
  | .read _ _ _ k => ∀ x, (k x).NoWhole
  | .write _ _ _ _ k => k.NoWhole
  | .call _ k => ∀ g, (k g).NoWhole
  | .whole _ _ => False

/-- What comes after the first calls of user code does not depend on whether they threw. -/
theorem run_congr {thr thr' : Thr V} (c : Code V α) : ∀ {t : Nat} {v : Vecs V}, (∀ s, t ≤ s → thr s = thr' s) → run thr c t v = run thr' c t v := by
  induction c with
  | ret a => intro t v _; rfl
  | ub => intro t v _; rfl
  | whole op k _ => intro t v _; rfl
  | col d j k ih => intro t v h; simp only [run]; cases v d with | none => rfl | some p => exact ih _ h
  | read d j i k ih => intro t v h; simp only [run]; cases (v d).bind fun p => (p j).data[i]? with | none => rfl | some p => exact ih _ h
  | write d j i x k ih =>
    intro t v h
    simp only [run]
    cases v d with
    | none => rfl
    | some p =>
      simp only
      split
      · exact ih h
      · rfl
  | call j k ih =>
    intro t v h
    simp only [run, h t (Nat.le_refl t)]
    exact ih _ fun s hs => h s (Nat.le_of_succ_le hs)

/-- Each execution that has ended is `run`, for some calls of user code that throw. -/
theorem run_of_go (chs : List (Choice V)) : ∀ {c : Code V α} {v u : Vecs V} {c' : Code V α} (t : Nat), c.NoWhole → go chs v c = some (u, c') → c'.Ended →
    ∃ thr, (∀ a, c' = .ret a → ∃ t', run thr c t v = some (a, u, t')) ∧ (c' = .ub → run thr c t v = none) := by
  induction chs with
  | nil =>
    intro c v u c' t _ h he
    cases h
    refine ⟨fun _ => none, ?_⟩
    cases c with
    | ret a => exact ⟨fun b e => by cases e; exact ⟨t, rfl⟩, fun e => by cases e⟩
    | ub => exact ⟨fun b e => (by cases e), fun _ => (by trivial)⟩
    | _ => exact absurd he (fun h => h)
  | cons ch chs ih =>
    intro c v u c' t hn h he
    simp only [go] at h
    cases c with
    | ret a => cases h
    | ub => cases h
    | whole op k => exact absurd hn (fun h => h)
    | col d j k =>
      simp only [step, run] at h ⊢
      cases hv : v d with
      | none =>
        simp only [hv, Option.bind_some] at h ⊢
        obtain ⟨rfl, rfl⟩ := go_ub h
        exact ⟨fun _ => none, fun b e => (by cases e), fun _ => (by trivial)⟩
      | some p =>
        simp only [hv, Option.bind_some] at h ⊢
        exact ih t (hn _) h he
    | read d j i k =>
      simp only [step, run] at h ⊢
      cases hv : (v d).bind fun p => (p j).data[i]? with
      | none =>
        simp only [hv, Option.bind_some] at h ⊢
        obtain ⟨rfl, rfl⟩ := go_ub h
        exact ⟨fun _ => none, fun b e => (by cases e), fun _ => (by trivial)⟩
      | some p =>
        simp only [hv, Option.bind_some] at h ⊢
        exact ih t (hn _) h he
    | write d j i x k =>
      simp only [step, run] at h ⊢
      cases hv : v d with
      | none =>
        simp only [hv, Option.bind_some] at h ⊢
        obtain ⟨rfl, rfl⟩ := go_ub h
        exact ⟨fun _ => none, fun b e => (by cases e), fun _ => (by trivial)⟩
      | some p =>
        simp only [hv] at h ⊢
        by_cases hi : i < (p j).data.length
        · simp only [if_pos hi, Option.bind_some] at h ⊢
          exact ih t hn h he
        · simp only [if_neg hi, Option.bind_some] at h ⊢
          obtain ⟨rfl, rfl⟩ := go_ub h
          exact ⟨fun _ => none, fun b e => (by cases e), fun _ => (by trivial)⟩
    | call j k =>
      simp only [step, run, Option.bind_some] at h ⊢
      obtain ⟨thr, hthr⟩ := ih (t + 1) (hn _) h he
      refine ⟨fun s => if s = t then ch.env.throws ch.tick else thr s, ?_⟩
      have hc : ∀ c : Code V α, run (fun s => if s = t then ch.env.throws ch.tick else thr s) c (t + 1) v = run thr c (t + 1) v := fun c =>
        run_congr c fun s hs => by simp [Nat.ne_of_gt (Nat.lt_of_succ_le hs)]
      simp only [hc, if_true]
      exact hthr

/-- Lengths of columns do not change. -/
theorem run_wf {thr : Thr V} (c : Code V α) : ∀ {t t' : Nat} {v u : Vecs V} {a : α}, Wf v → run thr c t v = some (a, u, t') → Wf u := by
  induction c with
  | ret a => intro t t' v u a W h; cases h; exact W
  | ub => intro t t' v u a W h; cases h
  | whole op k _ => intro t t' v u a W h; cases h
  | col d j k ih =>
    intro t t' v u a W h
    simp only [run] at h
    cases hv : v d with
    | none => simp [hv] at h
    | some p => simp only [hv] at h; exact ih _ W h
  | read d j i k ih =>
    intro t t' v u a W h
    simp only [run] at h
    cases hv : (v d).bind fun p => (p j).data[i]? with
    | none => simp [hv] at h
    | some p => simp only [hv] at h; exact ih _ W h
  | write d j i x k ih =>
    intro t t' v u a W h
    simp only [run] at h
    cases hv : v d with
    | none => simp [hv] at h
    | some p =>
      simp only [hv] at h
      split at h
      · refine ih (fun e q hq => ?_) h
        by_cases he : e = d
        · subst he
          simp only [upd, if_true] at hq
          cases hq
          have hl : ∀ l, (setP p j (Col.set i x (p j)) l).data.length = (p l).data.length := by
            intro l
            by_cases hl : l = j
            · subst hl; rw [setP_same]; simp [Col.set]
            · rw [setP_other hl]
          intro l
          have := W e p hv l
          rw [hl, this]
          simp only [sizeP]
          split
          · rw [hl]
          · rfl
        · simp only [upd, if_neg he] at hq
          exact W e q hq
      · cases h
  | call j k ih => intro t t' v u a W h; exact ih _ W h

/-! ### operations -/

theorem noWhole_sizeC {d : Nat} {k : Nat → Code V α} (h : ∀ s, (k s).NoWhole) : (sizeC d k).NoWhole := by
  unfold sizeC
  split
  · exact h
  · trivial

theorem noWhole_ite {c : Prop} [Decidable c] {a b : Code V α} (ha : a.NoWhole) (hb : b.NoWhole) : (if c then a else b).NoWhole := by
  split
  · exact ha
  · exact hb

theorem noWhole_refAt {d i : Nat} {k : Code V α} (h : k.NoWhole) : (refAt d i k).NoWhole :=
  noWhole_sizeC fun _ => noWhole_sizeC fun _ => noWhole_ite h trivial

theorem noWhole_assignField {d i : Nat} {j : Fin n} {x : V j} {k : Code V (Option (EOut V))} (h : k.NoWhole) : (assignField d i j x k).NoWhole := by
  intro g
  cases g with
  | none => exact h
  | some g => intro _; trivial

theorem noWhole_compareFields {cmp : (j : Fin n) → V j → V j → Cmp} {d i e k : Nat} {next : Cmp → Code V (Option (EOut V))} (h : ∀ c, (next c).NoWhole)
    (js : List (Fin n)) : ∀ c, (compareFields cmp d i e k next js c).NoWhole := by
  induction js with
  | nil => exact h
  | cons j js ih => intro c x y; exact noWhole_ite (ih _) (h _)

theorem noWhole_op {F : Fields V} {o : TOp V} (ho : o.onElements = true) : (o.code F).NoWhole := by
  cases o with
  | whole op => cases ho
  | size d => exact noWhole_sizeC fun _ => trivial
  | getField d i j => exact noWhole_refAt fun _ => trivial
  | setField d i j x => exact noWhole_refAt trivial
  | spanGet d i j => exact fun _ => noWhole_ite (fun _ => trivial) trivial
  | spanSet d i j x => exact fun _ => noWhole_ite trivial trivial
  | getElem d i =>
    refine noWhole_refAt ?_
    generalize List.finRange n = js
    suffices h : ∀ f : (j : Fin n) → Option (V j), (readFields d i js f).NoWhole from h _
    induction js with
    | nil => intro f; simp only [readFields]; cases collect f <;> trivial
    | cons j js ih => exact fun f x => ih _
  | assignElem d i x =>
    refine noWhole_refAt ?_
    induction List.finRange n with
    | nil => trivial
    | cons j js ih => exact noWhole_assignField ih
  | assignRef d i e k =>
    refine noWhole_refAt (noWhole_refAt ?_)
    induction List.finRange n with
    | nil => trivial
    | cons j js ih => exact fun x => noWhole_assignField ih
  | swapRef d i e k =>
    refine noWhole_refAt (noWhole_refAt ?_)
    induction List.finRange n with
    | nil => trivial
    | cons j js ih => exact fun x y => ih
  | iterMove d i =>
    refine noWhole_refAt ?_
    generalize List.finRange n = js
    suffices h : ∀ f : (j : Fin n) → Option (V j), (moveFields F.moved d i js f).NoWhole from h _
    induction js with
    | nil => intro f; simp only [moveFields]; cases collect f <;> trivial
    | cons j js ih => exact fun f x => ih _
  | compare d i e k => exact noWhole_refAt (noWhole_refAt (noWhole_compareFields (next := fun c => .ret (some (.order c))) (fun _ => trivial) _ _))
  | equal d e =>
    refine noWhole_sizeC fun s => noWhole_sizeC fun t => noWhole_ite ?_ trivial
    generalize 0 = i
    induction s generalizing i with
    | zero => trivial
    | succ m ih =>
      refine noWhole_refAt (noWhole_refAt (noWhole_compareFields (fun c => ?_) _ _))
      exact noWhole_ite (ih _) trivial

/-- A thread alone does one operation of its program after the other. -/
theorem runs_of_go (F : Fields V) (E : Env V) (hn : 0 < n) {P : Prog V α} : ∀ {v u : Vecs V} {chs : List (Choice V)} {c : Code V α}, P.OnElements → Wf v →
    go chs v (P.code F) = some (u, c) → (∀ a, c = .ret a → P.Runs F v u a) ∧ (c = .ub → P.Undef F v) := by
  induction P with
  | done a =>
    intro v u chs c _ _ h
    obtain ⟨rfl, rfl⟩ := go_ret h
    exact ⟨fun b e => by cases e; exact .done u a, fun e => by cases e⟩
  | op o next ih =>
    intro v u chs c hP W h
    suffices he : c.Ended → (∀ a, c = .ret a → (Prog.op o next).Runs F v u a) ∧ (c = .ub → (Prog.op o next).Undef F v) by
      exact ⟨fun a e => (he (by rw [e]; trivial)).1 a e, fun e => (he (by rw [e]; trivial)).2 e⟩
    intro he
    rcases go_bind chs h he with ⟨l, l', w, r, h1, h2⟩ | ⟨rfl, h2⟩
    · obtain ⟨thr, hr, _⟩ := run_of_go l 0 (noWhole_op hP.1) h1 trivial
      obtain ⟨t', hr⟩ := hr r rfl
      have hs := C117_sequential F { E with throws := thr, movedFrom := F.moved } rfl hn W o hP.1 0
      simp only [hr] at hs
      have := ih r (hP.2 r) (run_wf _ W hr) h2
      cases r with
      | none => exact ⟨fun a e => .exn rfl hs.symm (this.1 a e), fun e => .exn rfl hs.symm (this.2 e)⟩
      | some x => exact ⟨fun a e => .ok rfl hs.symm (this.1 a e), fun e => .ok rfl hs.symm (this.2 e)⟩
    · obtain ⟨thr, _, hr⟩ := run_of_go chs 0 (noWhole_op hP.1) h2 trivial
      have hs := C117_sequential F { E with throws := thr, movedFrom := F.moved } rfl hn W o hP.1 0
      simp only [hr rfl] at hs
      exact ⟨fun a e => (by cases e), fun _ => .here rfl hs.symm⟩

/-- C117: a thread whose operations are on elements computes what it computes if its operations are executed one after the other as in Model/Dpv.lean with no other
thread there, whatever the other threads do between its accesses; and the parts of the containers that it may read are then as that leaves them. -/
theorem C117_results (F : Fields V) (E : Env V) (hn : 0 < n) {own : Owner n} {P : Nat → Prog V α} (hP : ∀ i, (P i).Uses own i) {v v' : Vecs V} (W : Wf v)
    {s : List (Nat × Choice V)} {cs : Nat → Code V α} (h : Interleaved v (fun i => (P i).code F) s v' cs) {i : Nat} (he : (P i).OnElements) :
    (∀ a, cs i = .ret a → ∃ u, (P i).Runs F v u a ∧ ∀ x, MayRead own i x → Same v' u x) ∧ (cs i = .ub → (P i).Undef F v) := by
  obtain ⟨u, hu, hs⟩ := (C117_alone F hP h).1 i
  have := runs_of_go F E hn he W (go_of_alone hu)
  exact ⟨fun a ha => ⟨u, this.1 a ha, hs⟩, this.2⟩

/-! ### example of use: the elements of a container shared out to threads -/

theorem getElem_seq {F : Fields V} {env : Env V} (hn : 0 < n) {v : Vecs V} {d k t : Nat} {xs : List (Rec V)} (H : Holds v d xs) (hk : k < xs.length) :
    (TOp.getElem d k).seq F env ⟨v, t⟩ = .ok (.val xs[k]) ⟨v, t⟩ := by
  obtain ⟨p, hv, hp⟩ := H
  have hl : ∀ j, (p j).data.length = xs.length := fun j => by rw [hp]; simp
  have hs : k < sizeP p := by simp only [sizeP, dif_pos hn, hl]; exact hk
  have hi : ∀ j, k < (p j).data.length := fun j => by rw [hl]; exact hk
  simp only [TOp.seq]
  show M.bind (Dpv.elem d k) _ _ = _
  rw [M.bind, elem_ok hv hs hi]
  simp only [pure, M.pure]
  congr 2
  funext j
  have : ∀ (l : List (V j)) (h : k < l.length), l = xs.map (· j) → l[k] = xs[k] j := by intro l h e; subst e; simp
  exact this _ _ (hp j)

theorem assignElem_seq {F : Fields V} {env : Env V} (hn : 0 < n) {v : Vecs V} {d k t : Nat} {x : Rec V} {xs : List (Rec V)} (H : Holds v d xs)
    (hk : k < xs.length) : (∃ v' t', (TOp.assignElem d k x).seq F env ⟨v, t⟩ = .exn ⟨v', t'⟩) ∨
      ∃ v' t', (TOp.assignElem d k x).seq F env ⟨v, t⟩ = .ok .unit ⟨v', t'⟩ ∧ Holds v' d (xs.set k x) := by
  obtain ⟨p, hv, hp⟩ := H
  have hl : ∀ j, (p j).data.length = xs.length := fun j => by rw [hp]; simp
  have hs : k < sizeP p := by simp only [sizeP, dif_pos hn, hl]; exact hk
  have hi : ∀ j, k < (p j).data.length := fun j => by rw [hl]; exact hk
  obtain ⟨_, h2, _⟩ := forCols_cases (env := env) (fun j _ c => Col.set k (x j) c) (leftElem k) (List.finRange n) (List.nodup_finRange n) p t
  have hseq : (TOp.assignElem d k x).seq F env ⟨v, t⟩ =
      let r := forCols env (fun j _ c => Col.set k (x j) c) (leftElem k) (List.finRange n) p t
      if r.2.2 then .exn ⟨upd v d (some r.1), r.2.1⟩ else .ok .unit ⟨upd v d (some r.1), r.2.1⟩ := by
    simp only [TOp.seq]
    show M.bind (Dpv.assignElem env d k x) _ _ = _
    unfold Dpv.assignElem
    show M.bind (M.bind (Dpv.proxyAt d k) _) _ _ = _
    unfold Dpv.proxyAt
    simp only [M.bind, bind, Dpv.get, hv, hs, hi, implies_true, and_self, if_true, pure, M.pure, Dpv.apply]
    cases (forCols env (fun j _ c => Col.set k (x j) c) (leftElem k) (List.finRange n) p t).2.2 <;> simp
  rw [hseq]
  generalize hr : forCols env (fun j _ c => Col.set k (x j) c) (leftElem k) (List.finRange n) p t = r at *
  obtain ⟨q, t', b⟩ := r
  cases b with
  | true => exact .inl ⟨_, _, rfl⟩
  | false =>
    refine .inr ⟨_, _, rfl, q, by simp [upd], fun j => ?_⟩
    obtain ⟨_, h⟩ := h2 rfl j (List.mem_finRange j)
    have h' : q j = Col.set k (x j) (p j) := h
    rw [h']
    simp only [Col.set, hp, List.map_set]

theorem map_step {f : Rec V → Rec V} {k : Nat} {ks : List Nat} (hk : k ∉ ks) {xs : List (Rec V)} (h : k < xs.length) :
    (xs.set k (f xs[k])).mapIdx (fun m x => if m ∈ ks then f x else x) = xs.mapIdx fun m x => if m ∈ k :: ks then f x else x := by
  apply List.ext_getElem?
  intro m
  simp only [List.getElem?_mapIdx, List.getElem?_set]
  by_cases hm : k = m
  · subst hm
    simp [h, hk]
  · have : ¬ m = k := fun e => hm e.symm
    simp [hm, this]

theorem map_runs {F : Fields V} (hn : 0 < n) {d : Nat} {f : Rec V → Rec V} (ks : List Nat) : ∀ {v : Vecs V} {xs : List (Rec V)}, Holds v d xs →
    (∀ k ∈ ks, k < xs.length) → ks.Nodup →
    (∀ u, (mapProg d f ks).Runs F v u true → Holds u d (xs.mapIdx fun m x => if m ∈ ks then f x else x)) ∧ ¬ (mapProg d f ks).Undef F v := by
  induction ks with
  | nil =>
    intro v xs H _ _
    refine ⟨fun u h => ?_, fun h => (by cases h)⟩
    cases h
    have : xs.mapIdx (fun m x => if m ∈ ([] : List Nat) then f x else x) = xs := by
      apply List.ext_getElem?
      intro m
      simp [List.getElem?_mapIdx]
    rw [this]
    exact H
  | cons k ks ih =>
    intro v xs H hk hnd
    have hk0 := hk k (List.mem_cons_self ..)
    have hnd' := List.nodup_cons.1 hnd
    have hg : ∀ {env : Env V} {t : Nat}, (TOp.getElem d k).seq F env ⟨v, t⟩ = .ok (.val xs[k]) ⟨v, t⟩ := getElem_seq hn H hk0
    have hrec : ∀ {v' : Vecs V}, Holds v' d (xs.set k (f xs[k])) → _ := fun {v'} H' => ih (v := v') H' (fun m hm => by simpa using hk m (List.mem_cons_of_mem _ hm)) hnd'.2
    refine ⟨fun u h => ?_, fun h => ?_⟩
    · cases h with
      | ok hm h hr =>
        rw [hg] at h
        cases h
        cases hr with
        | ok hm h hr =>
          rename_i env' _ t1 _ _
          rcases assignElem_seq (F := F) (env := env') (t := t1) (x := f xs[k]) hn H hk0 with ⟨v2, t2, e⟩ | ⟨v2, t2, e, H2⟩
          · rw [e] at h; cases h
          · rw [e] at h
            cases h
            rw [← map_step hnd'.1 hk0]
            exact (hrec H2).1 u hr
        | exn hm h hr => cases hr
      | exn hm h hr => rw [hg] at h; cases h
    · cases h with
      | here hm h => rw [hg] at h; cases h
      | ok hm h hr =>
        rw [hg] at h
        cases h
        cases hr with
        | here hm h =>
          rename_i env' t1
          rcases assignElem_seq (F := F) (env := env') (t := t1) (x := f xs[k]) hn H hk0 with ⟨v2, t2, e⟩ | ⟨v2, t2, e, H2⟩ <;> rw [e] at h <;> cases h
        | ok hm h hr =>
          rename_i env' _ t1 _ _
          rcases assignElem_seq (F := F) (env := env') (t := t1) (x := f xs[k]) hn H hk0 with ⟨v2, t2, e⟩ | ⟨v2, t2, e, H2⟩
          · rw [e] at h; cases h
          · rw [e] at h
            cases h
            exact (hrec H2).2 hr
        | exn hm h hr => cases hr
      | exn hm h hr => rw [hg] at h; cases h

theorem map_onElements {d : Nat} {f : Rec V → Rec V} (ks : List Nat) : (mapProg d f ks).OnElements := by
  induction ks with
  | nil => trivial
  | cons k ks ih =>
    refine ⟨rfl, fun r => ?_⟩
    cases r with
    | none => trivial
    | some x =>
      cases x <;> try trivial
      refine ⟨rfl, fun r => ?_⟩
      cases r with
      | none => trivial
      | some _ => exact ih

/-- Each element belongs to the thread `who` says; nobody changes the container itself. -/
def shareOut (who : Nat → Nat) : Owner n
  | .shape _ => none
  | .field _ k _ => some (who k)

theorem map_uses {d : Nat} {f : Rec V → Rec V} {who : Nat → Nat} {i : Nat} (ks : List Nat) (hk : ∀ k ∈ ks, who k = i) :
    (mapProg d f ks).Uses (shareOut who) i := by
  induction ks with
  | nil => trivial
  | cons k ks ih =>
    have hk0 := hk k (List.mem_cons_self ..)
    refine ⟨?_, fun _ h => h.elim, fun r => ?_⟩
    · rintro x (rfl | ⟨j, rfl⟩)
      · exact .inr rfl
      · exact .inl (by rw [shareOut, hk0])
    cases r with
    | none => trivial
    | some x =>
      cases x <;> try trivial
      refine ⟨?_, ?_, fun r => ?_⟩
      · rintro x rfl
        exact .inr rfl
      · rintro x ⟨j, rfl⟩
        show some (who k) = some i
        rw [hk0]
      cases r with
      | none => trivial
      | some _ => exact ih fun m hm => hk m (List.mem_cons_of_mem _ hm)

/-- C117: `for_each` in parallel: if the positions of a container are shared out to threads (`ks i` to thread `i`), each of them assigns `f(v[k])` to `v[k]` for its
positions, and all come to the end without an exception, then each element has been replaced by `f` of it once, for every interleaving of the accesses. There are no
data races and no undefined behaviour, also if fields are `bool`. -/
theorem C117_parallel_map (F : Fields V) (E : Env V) (hn : 0 < n) (isBool : Fin n → Bool) {v v' : Vecs V} (W : Wf v) {d : Nat} {xs : List (Rec V)} (H : Holds v d xs)
    (f : Rec V → Rec V) (who : Nat → Nat) (ks : Nat → List Nat) (hks : ∀ i k, k ∈ ks i ↔ k < xs.length ∧ who k = i) (hnd : ∀ i, (ks i).Nodup)
    {s : List (Nat × Choice V)} {cs : Nat → Code V Bool} (h : Interleaved v (fun i => (mapProg d f (ks i)).code F) s v' cs) :
    ¬ Race isBool cs ∧ (∀ i, cs i ≠ .ub) ∧ ((∀ i, cs i = .ret true) → Holds v' d (xs.map f)) := by
  have hP : ∀ i, (mapProg d f (ks i)).Uses (shareOut who : Owner n) i := fun i => map_uses _ fun k hk => ((hks i k).1 hk).2
  have hr := fun i => C117_results F E hn hP W h (i := i) (map_onElements _)
  have hm := fun i => map_runs (F := F) hn (f := f) (ks i) H (fun k hk => ((hks i k).1 hk).1) (hnd i)
  refine ⟨C117_no_race F isBool hP h, fun i hu => (hm i).2 ((hr i).2 hu), fun hall => ?_⟩
  have hshape := (C117_alone F hP h).2
  obtain ⟨p, hv, hp⟩ := H
  have h1 := hshape (.shape d) rfl
  simp only [Same, hv, Option.isSome_some] at h1
  obtain ⟨q, hq⟩ := Option.isSome_iff_exists.1 h1.1.symm
  refine ⟨q, hq, fun j => ?_⟩
  have hlen : (q j).data.length = xs.length := by
    have := h1.2 j
    simp only [shapeOf, hv, hq, Option.map_some, Option.some.injEq, Prod.mk.injEq] at this
    rw [← this.1, hp]
    simp
  apply List.ext_getElem?
  intro k
  by_cases hk : k < xs.length
  · obtain ⟨u, hu, hs⟩ := (hr (who k)).1 true (hall (who k))
    obtain ⟨p', hp', hd'⟩ := (hm (who k)).1 u hu
    have := hs (.field d k j) (.inl rfl)
    simp only [Same, fieldOf, hq, hp', Option.bind_some] at this
    rw [this, hd']
    have hmem : k ∈ ks (who k) := (hks _ _).2 ⟨hk, rfl⟩
    simp [List.getElem?_mapIdx, hk, hmem]
  · have h2 : xs.length ≤ k := Nat.le_of_not_lt hk
    rw [List.getElem?_eq_none (by rw [hlen]; exact h2), List.getElem?_eq_none (by simpa using h2)]

/-- C117: no thread waits for another one: each thread that has not come to its end can go on, whatever the others have done. -/
theorem C117_no_waiting {c : Code V α} (h : ¬ c.Ended) (v : Vecs V) (ch : Choice V) : (step ch v c).isSome = true := by
  cases c with
  | ret a => exact absurd trivial h
  | ub => exact absurd trivial h
  | col d j k => simp only [step]; cases v d <;> rfl
  | read d j i k => simp only [step]; cases (v d).bind fun p => (p j).data[i]? <;> rfl
  | write d j i x k =>
    simp only [step]
    cases v d with
    | none => rfl
    | some p => simp only; split <;> rfl
  | call j k => rfl
  | whole op k => simp only [step]; cases exec ch.env op ⟨v, ch.tick⟩ <;> rfl

/-- C117: without that agreement there are data races: two threads that use the same element, one of them writing a field of it, can be about to access that field
at the same time. -/
theorem C117_sharing_races (hn : 0 < n) (F : Fields V) (E : Env V) (isBool : Fin n → Bool) {v : Vecs V} {d i : Nat} {xs : List (Rec V)} (H : Holds v d xs)
    (hi : i < xs.length) (j : Fin n) (x : V j) (next next' : Option (EOut V) → Prog V α) :
    ∃ s v' cs, Interleaved v (fun t => if t = 0 then (Prog.op (.setField d i j x) next).code F else (Prog.op (.getField d i j) next').code F) s v' cs ∧ Race isBool cs := by
  obtain ⟨p, hv, hp⟩ := H
  have hs : (p ⟨0, hn⟩).data.length = xs.length := by rw [hp]; simp
  let c0 : Code V α := (Code.write d j i x (.ret (some .unit))).bind fun r => (next r).code F
  let c1 : Code V α := (Code.read d j i fun x => .ret (some (.fld j x))).bind fun r => (next' r).code F
  have ch : Choice V := ⟨E, 0⟩
  have hst : ∀ k : Nat → Code V α, step ch v (.col d ⟨0, hn⟩ k) = some (v, k xs.length) := fun k => by simp only [step, hv, hs]
  have hcode : ∀ k : Code V (Option (EOut V)), ∀ f : Option (EOut V) → Code V α, (refAt d i k).bind f =
      .col d ⟨0, hn⟩ fun _ => .col d ⟨0, hn⟩ fun s => (if i < s then k else .ub).bind f := fun k f => by
    simp only [refAt, sizeC, dif_pos hn, Code.bind]
  have h0 := Interleaved.refl v (fun t => if t = 0 then (Prog.op (.setField d i j x) next).code F else (Prog.op (.getField d i j) next').code F)
  have h1 := h0.step (i := 0) (ch := ch) (by simp only [if_true, Prog.code, TOp.code, hcode]; exact hst _)
  have h2 := h1.step (i := 0) (ch := ch) (by simp only [set, if_true]; exact hst _)
  have h3 := h2.step (i := 1) (ch := ch) (by simp only [set, Nat.one_ne_zero, if_false, Prog.code, TOp.code, hcode]; exact hst _)
  have h4 := h3.step (i := 1) (ch := ch) (by simp only [set, if_true]; exact hst _)
  refine ⟨_, _, _, h4, 0, 1, fieldLoc isBool d j i, by decide, ?_, .inl ?_⟩
  · simp [set, hi, Code.bind, Code.Writes]
  · simp [set, hi, Code.bind, Code.Reads]

/-! ### the hypotheses are met -/

abbrev FV : Fin 2 → Type | 0 => Nat | 1 => Bool

def frec (a : Nat) (b : Bool) : Rec FV | 0 => a | 1 => b

def fenv : Env FV where
  grow := fun _ k => k
  grow_ok := fun _ _ => Nat.le_refl _
  shrink := fun k _ => k
  shrink_ok := fun _ _ h => ⟨Nat.le_refl _, h⟩
  throws := fun _ => none
  fieldDefault := frec 0 false
  recDefault := frec 0 false
  movedFrom := fun _ x => x

def ffields : Fields FV := ⟨fun _ _ _ => .equal, fun _ x => x⟩

/-- Container 0 with elements (1, true), (2, false), (3, true). -/
def fvecs : Vecs FV := fun d => if d = 0 then
  some fun j => ⟨([frec 1 true, frec 2 false, frec 3 true]).map (· j), 3, 0⟩ else none

theorem fvecs_wf : Wf fvecs := by
  intro d p h j
  simp only [fvecs] at h
  split at h
  · cases h; simp [sizeP]
  · cases h

theorem fvecs_holds : Holds fvecs 0 [frec 1 true, frec 2 false, frec 3 true] := ⟨_, rfl, fun _ => rfl⟩

/-- All of thread 0, then all of thread 1, ... -/
def sched : List (Nat × Choice V) → Vecs V → (Nat → Code V α) → Option (Vecs V × (Nat → Code V α))
  | [], v, cs => some (v, cs)
  | (i, ch) :: s, v, cs => (step ch v (cs i)).bind fun x => sched s x.1 (set cs i x.2)

theorem sched_interleaved (s : List (Nat × Choice V)) : ∀ {v0 v u : Vecs V} {cs0 cs cs' : Nat → Code V α} {l : List (Nat × Choice V)}, Interleaved v0 cs0 l v cs →
    sched s v cs = some (u, cs') → Interleaved v0 cs0 (l ++ s) u cs' := by
  induction s with
  | nil => intro v0 v u cs0 cs cs' l h hs; cases hs; simpa using h
  | cons x s ih =>
    intro v0 v u cs0 cs cs' l h hs
    obtain ⟨i, ch⟩ := x
    simp only [sched] at hs
    cases hx : step ch v (cs i) with
    | none => simp [hx] at hs
    | some y =>
      rw [hx] at hs
      have := ih (h.step (v'' := y.1) (c := y.2) hx) hs
      simpa using this

/-- Thread 0 has elements 0 and 2, thread 1 has element 1. -/
def fks : Nat → List Nat
  | 0 => [0, 2]
  | 1 => [1]
  | _ => []

def fwho (k : Nat) : Nat := k % 2

theorem fks_ok : (∀ i k, k ∈ fks i ↔ k < 3 ∧ fwho k = i) ∧ ∀ i, (fks i).Nodup := by
  refine ⟨fun i k => ?_, fun i => ?_⟩
  · match i with
    | 0 => simp [fks, fwho]; omega
    | 1 => simp [fks, fwho]; omega
    | i + 2 => simp [fks, fwho]; omega
  · match i with
    | 0 => simp [fks]
    | 1 => simp [fks]
    | _ + 2 => simp [fks]

def fch : Choice FV := ⟨fenv, 0⟩

/-- They take turns. -/
def fsched : List (Nat × Choice FV) :=
  ([0, 1, 0, 1, 0, 1, 1, 0, 1, 0, 0, 1, 1, 0, 1, 0, 1, 0, 0, 1, 0, 0, 0, 0, 0, 0, 0, 0, 0, 0]).map fun i => (i, fch)

def fmap (r : Rec FV) : Rec FV := frec (Nat.add (r 0) 10) (!(r 1))

theorem fsched_ends : ∃ v' cs, sched fsched fvecs (fun i => (mapProg 0 fmap (fks i)).code ffields) = some (v', cs) ∧ ∀ i, cs i = .ret true :=
  ⟨_, _, rfl, fun i => match i with | 0 => rfl | 1 => rfl | _ + 2 => rfl⟩

/-- The field of type `bool` is changed in neighbouring elements. -/
example : ∃ v' cs, Interleaved fvecs (fun i => (mapProg 0 fmap (fks i)).code ffields) fsched v' cs ∧ ¬ Race (fun j => j == 1) cs ∧
    Holds v' 0 [frec 11 false, frec 12 true, frec 13 false] := by
  obtain ⟨v', cs, h, he⟩ := fsched_ends
  have hi := sched_interleaved _ (.refl _ _) h
  have := C117_parallel_map ffields fenv (by decide) (fun j => j == 1) fvecs_wf fvecs_holds fmap fwho fks fks_ok.1 fks_ok.2 hi
  exact ⟨v', cs, hi, this.1, this.2.2 he⟩

/-- Two threads that use different fields of one element. -/
def fboth : Nat → Prog FV Bool
  | 0 => .op (.setField 0 1 0 (5 : Nat)) fun _ => .op (.getField 0 1 0) fun r => .done (match r with | some (.fld 0 x) => Nat.beq x 5 | _ => false)
  | 1 => .op (.spanSet 0 1 1 true) fun _ => .done true
  | _ => .done true

def fbothOwn : Owner 2
  | .shape _ => none
  | .field _ _ j => some j.val

theorem fboth_uses : ∀ i, (fboth i).Uses fbothOwn i
  | 0 => ⟨fun x h => .inr (by rw [show x = _ from h]; rfl), fun x h => by rw [show x = _ from h]; rfl, fun _ => ⟨fun x h => by
      rcases h with rfl | rfl
      · exact .inr rfl
      · exact .inl rfl, fun _ h => h.elim, fun _ => trivial⟩⟩
  | 1 => ⟨fun x h => .inr (by rw [show x = _ from h]; rfl), fun x h => by rw [show x = _ from h]; rfl, fun _ => trivial⟩
  | _ + 2 => trivial

example : ∃ s v' cs, Interleaved fvecs (fun i => (fboth i).code ffields) s v' cs ∧ cs 0 = .ret true ∧ cs 1 = .ret true ∧ ¬ Race (fun j => j == 1) cs ∧
    ∃ u, (fboth 0).Runs ffields fvecs u true ∧ ∀ x, MayRead fbothOwn 0 x → Same v' u x := by
  have h : ∃ v' cs, sched (([0, 1, 0, 0, 1, 0, 0, 0]).map fun i => (i, fch)) fvecs (fun i => (fboth i).code ffields) = some (v', cs) ∧ cs 0 = .ret true ∧ cs 1 = .ret true :=
    ⟨_, _, rfl, rfl, rfl⟩
  obtain ⟨v', cs, h, h0, h1⟩ := h
  have hi := sched_interleaved _ (.refl _ _) h
  exact ⟨_, v', cs, hi, h0, h1, C117_no_race ffields _ fboth_uses hi,
    (C117_results ffields fenv (by decide) fboth_uses fvecs_wf hi (i := 0) ⟨rfl, fun _ => ⟨rfl, fun _ => trivial⟩⟩).1 true h0⟩

example : ∃ s v' cs, Interleaved fvecs (fun t => if t = 0 then (Prog.op (.setField 0 1 0 (5 : Nat)) fun _ => .done ()).code ffields
    else (Prog.op (.getField 0 1 0) fun _ => .done ()).code ffields) s v' cs ∧ Race (fun j => j == 1) cs :=
  C117_sharing_races (by decide) ffields fenv _ fvecs_holds (by decide) 0 (5 : Nat) _ _

/-- An exception in the second field: both give the same. -/
example : toRes (run (fun t => if t = 1 then some (fun _ l => l, fun _ x => x) else none) ((TOp.assignElem 0 1 (frec 8 true)).code ffields) 0 fvecs) =
    (TOp.assignElem 0 1 (frec 8 true)).seq ffields { fenv with throws := fun t => if t = 1 then some (fun _ l => l, fun _ x => x) else none } ⟨fvecs, 0⟩ :=
  C117_sequential ffields { fenv with throws := fun t => if t = 1 then some (fun _ l => l, fun _ x => x) else none } rfl (by decide) fvecs_wf _ rfl 0

end AnyAny.DpvFine
