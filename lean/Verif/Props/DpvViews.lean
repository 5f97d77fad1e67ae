import Verif.Spec.DpvViews
import Verif.Props.Dpv
/-
C93: views by type. C94: structured bindings.
-/
namespace AnyAny.Dpv

variable {n : Nat} {V : Fin n → Type} {F : Type} [DecidableEq F] {env : Env V} {w : World V} {S : SVecs V}

private theorem containerFor_inj {T : Types n F} {x y : F} (hb : T.boolT ≠ T.boolU) (hx : x ≠ T.boolU) (hy : y ≠ T.boolU) :
    containerFor T x = containerFor T y ↔ x = y := by
  unfold containerFor
  by_cases h1 : x = T.boolT <;> by_cases h2 : y = T.boolT
  · simp [h1, h2]
  · rw [if_pos h1, if_neg h2]
    exact ⟨fun h => absurd h.symm hy, fun h => absurd (h.symm.trans h1) h2⟩
  · rw [if_neg h1, if_pos h2]
    exact ⟨fun h => absurd h hx, fun h => absurd (h.trans h2) h1⟩
  · rw [if_neg h1, if_neg h2]

private theorem filter_one {p : Fin n → Bool} {j : Fin n} : (List.finRange n).filter p = [j] ↔ ∀ k, p k = true ↔ k = j := by
  constructor
  · intro h k
    have : k ∈ (List.finRange n).filter p ↔ k ∈ [j] := by rw [h]
    simpa [List.mem_finRange] using this
  · intro h
    have hp : p = fun k => decide (k = j) := by
      funext k
      have := h k
      by_cases hk : k = j
      · simp [hk, (h j).2 rfl]
      · have : p k ≠ true := fun e => hk ((h k).1 e)
        simp [hk, this]
    have hnd : (List.finRange n).Nodup := List.nodup_finRange n
    subst hp
    have hall : ∀ l : List (Fin n), l.Nodup → j ∈ l → l.filter (fun k => decide (k = j)) = [j] := by
      intro l
      induction l with
      | nil => intro _ h; cases h
      | cons a l ih =>
        intro hn hm
        rw [List.nodup_cons] at hn
        by_cases ha : a = j
        · subst ha
          have : l.filter (fun k => decide (k = a)) = [] := by
            rw [List.filter_eq_nil_iff]
            intro k hk e
            simp only [decide_eq_true_eq] at e
            subst e; exact hn.1 hk
          simp [List.filter_cons, this]
        · have hm' : j ∈ l := by
            cases hm with
            | head => exact absurd rfl ha
            | tail _ h => exact h
          simp [List.filter_cons, ha, ih hn.2 hm']
    exact hall _ hnd (List.mem_finRange j)

private theorem stdGet_iff {T : Types n F} {c : F} {j : Fin n} : stdGet T c = some j ↔ ∀ k, containerFor T (T.ty k) = c ↔ k = j := by
  unfold stdGet
  have := filter_one (p := fun k => decide (containerFor T (T.ty k) = c)) (j := j)
  simp only [decide_eq_true_eq] at this
  rw [← this]
  split
  · rename_i h; simp [h]
  · rename_i h
    constructor
    · intro e; cases e
    · intro e; exact absurd e (h j)

private theorem stdGet_type {T : Types n F} {x : F} (hb : T.boolT ≠ T.boolU) (ht : ∀ j, T.ty j ≠ T.boolU) (hx : x ≠ T.boolU) {j : Fin n} :
    stdGet T (containerFor T x) = some j ↔ OnlyField T x j := by
  rw [stdGet_iff]
  exact forall_congr' fun k => by rw [containerFor_inj hb (ht k) hx]

private theorem getSpan_iff {T : Types n F} {x : TArg F} (hb : T.boolT ≠ T.boolU) (ht : ∀ j, T.ty j ≠ T.boolU) (hx : x.ty ≠ T.boolU) (c : Bool)
    {s : Span n F} : (if c then getSpanConst T else getSpan T) x = some s ↔
      OnlyField T x.ty s.col ∧ s.elem = x.ty ∧ s.const = (c || x.const) := by
  obtain ⟨x, xc⟩ := x
  obtain ⟨j, e, sc⟩ := s
  dsimp only at *
  have key : ∀ k, stdGet T (containerFor T x) = some k → (containerFor T (T.ty k) = x ↔ x ≠ T.boolT) := by
    intro k hk
    have h1 := (stdGet_type hb ht hx).1 hk
    have h2 : T.ty k = x := (h1 k).2 rfl
    rw [h2]
    unfold containerFor
    split
    · rename_i h; exact ⟨fun e => absurd e.symm hx, fun e => absurd h e⟩
    · rename_i h; simp [h]
  cases hg : stdGet T (containerFor T x) with
  | none =>
    have : ¬ OnlyField T x j := fun h => by rw [(stdGet_type hb ht hx).2 h] at hg; cases hg
    cases c <;> simp [getSpan, getSpanConst, hg, this]
  | some k =>
    have hk := key k hg
    have h1 := (stdGet_type hb ht hx).1 hg
    have hj : OnlyField T x j ↔ k = j := ⟨fun h => (h k).1 ((h1 k).2 rfl), fun h => h ▸ h1⟩
    rw [hj]
    by_cases hxb : x = T.boolT
    · subst hxb
      cases c <;> cases xc <;> simp [getSpan, getSpanConst, hg, eq_comm]
    · have hc := hk.2 hxb
      cases c <;> cases xc <;> simp [getSpan, getSpanConst, hg, hxb, hc, eq_comm]

private theorem mapM_some {α β : Type} {f : α → Option β} : ∀ {xs : List α} {ys : List β}, xs.mapM f = some ys ↔ xs.map f = ys.map some := by
  intro xs
  induction xs with
  | nil => intro ys; cases ys <;> simp
  | cons x xs ih =>
    intro ys
    cases hx : f x with
    | none => cases ys <;> simp [List.mapM_cons, hx]
    | some y =>
      cases hr : xs.mapM f with
      | none =>
        cases ys with
        | nil => simp [List.mapM_cons, hx, hr]
        | cons z zs =>
          simp only [List.mapM_cons, hx, hr, List.map_cons]
          constructor
          · intro h; cases h
          · intro h
            have := ih.2 (List.cons.inj h).2
            rw [hr] at this; cases this
      | some r =>
        cases ys with
        | nil => simp [List.mapM_cons, hx, hr]
        | cons z zs =>
          simp only [List.mapM_cons, hx, hr, List.map_cons, List.cons.injEq, Option.some.injEq, bind, Option.bind, pure]
          rw [← ih, hr]
          simp

/-! ### C93 -/

/-- **C93**. `view<X1, ..., Xk>()` gives the spans `ss` exactly if there are `k` of them and span `i` is that of the only field with the type `Xi` (without `const`); its
elements are of type `Xi`, and `const` if the container is or `Xi` is. -/
theorem C93_types (T : Types n F) (selfConst : Bool) {xs : List (TArg F)} (hi : NoInternal T xs) {ss : List (Span n F)} :
    viewTypes T selfConst xs = some ss ↔ ss.length = xs.length ∧ ∀ (i : Nat) (x : TArg F) (s : Span n F), xs[i]? = some x → ss[i]? = some s →
      OnlyField T x.ty s.col ∧ s.elem = x.ty ∧ s.const = (selfConst || x.const) := by
  unfold viewTypes
  rw [mapM_some]
  constructor
  · intro h
    have hl : ss.length = xs.length := by simpa using (congrArg List.length h).symm
    refine ⟨hl, fun i x s hx hs => ?_⟩
    have := congrArg (·[i]?) h
    simp only [List.getElem?_map, hx, hs, Option.map_some, Option.some.injEq] at this
    exact (getSpan_iff hi.1 hi.2.1 (hi.2.2 x (List.mem_of_getElem? hx)) selfConst).1 this
  · intro ⟨hl, h⟩
    apply List.ext_getElem?
    intro i
    rw [List.getElem?_map, List.getElem?_map]
    rcases Nat.lt_or_ge i xs.length with hlt | hge
    · have hx : xs[i]? = some xs[i] := List.getElem?_eq_getElem hlt
      have hs : ss[i]? = some ss[i] := List.getElem?_eq_getElem (by omega)
      rw [hx, hs]
      simp only [Option.map_some, Option.some.injEq]
      exact (getSpan_iff hi.1 hi.2.1 (hi.2.2 _ (List.mem_of_getElem? hx)) selfConst).2 (h i _ _ hx hs)
    · rw [List.getElem?_eq_none hge, List.getElem?_eq_none (by omega)]; rfl

/-- **C93**, when it compiles: exactly if every type is the type of exactly one field. -/
theorem C93_compiles (T : Types n F) (selfConst : Bool) {xs : List (TArg F)} (hi : NoInternal T xs) :
    (viewTypes T selfConst xs).isSome = true ↔ ∀ x ∈ xs, ∃ j, OnlyField T x.ty j := by
  constructor
  · intro h x hx
    obtain ⟨ss, hss⟩ := Option.isSome_iff_exists.1 h
    obtain ⟨hl, hc⟩ := (C93_types T selfConst hi).1 hss
    obtain ⟨i, hlt, rfl⟩ := List.getElem_of_mem hx
    exact ⟨_, (hc i _ (ss[i]'(by omega)) (List.getElem?_eq_getElem hlt) (List.getElem?_eq_getElem (by omega))).1⟩
  · intro h
    have : ∀ xs : List (TArg F), NoInternal T xs → (∀ x ∈ xs, ∃ j, OnlyField T x.ty j) →
        ∃ ss : List (Span n F), xs.map (if selfConst then getSpanConst T else getSpan T) = ss.map some := by
      intro xs
      induction xs with
      | nil => intro _ _; exact ⟨[], rfl⟩
      | cons x xs ih =>
        intro hi h
        obtain ⟨ss, hss⟩ := ih ⟨hi.1, hi.2.1, fun y hy => hi.2.2 y (List.mem_cons_of_mem _ hy)⟩ fun y hy => h y (List.mem_cons_of_mem _ hy)
        obtain ⟨j, hj⟩ := h x (List.mem_cons_self ..)
        refine ⟨⟨j, x.ty, selfConst || x.const⟩ :: ss, ?_⟩
        rw [List.map_cons, List.map_cons, hss,
          (getSpan_iff hi.1 hi.2.1 (hi.2.2 x (List.mem_cons_self ..)) selfConst (s := ⟨j, x.ty, selfConst || x.const⟩)).2 ⟨hj, rfl, rfl⟩]
    obtain ⟨ss, hss⟩ := this xs hi h
    rw [viewTypes, mapM_some.2 hss]; rfl

/-- **C93**, by index: span `i` of `view<I1, ..., Ik>()` is that of field `Ii`, with elements of its type, `const` if the container is. -/
theorem C93_index (T : Types n F) (selfConst : Bool) (js : List (Fin n)) :
    viewIdx T selfConst js = js.map fun j => ⟨j, T.ty j, selfConst⟩ := by
  refine List.map_congr_left fun j _ => ?_
  unfold getSpanIdx containerFor
  by_cases h : T.ty j = T.boolT
  · rw [if_pos h, h]
  · rw [if_neg h, if_neg h]

/-- **C93**, contents: in every history the spans hold the fields of the elements in order. -/
theorem C93_contents (hn : 0 < n) (h : Reach env w S) {d : Nat} {xs : List (Rec V)} (hd : S d = some xs) (T : Types n F) (selfConst : Bool)
    {ts : List (TArg F)} (hi : NoInternal T ts) {ss : List (Span n F)} (hs : viewTypes T selfConst ts = some ss) {i : Nat} {s : Span n F}
    (hsi : ss[i]? = some s) : ∃ x j, ts[i]? = some x ∧ T.ty j = x.ty ∧ s.col = j ∧ view d s.col w = .ok (xs.map (· s.col)) w := by
  obtain ⟨hl, hc⟩ := (C93_types T selfConst hi).1 hs
  obtain ⟨hlt, _⟩ := List.getElem?_eq_some_iff.1 hsi
  have hx : ts[i]? = some (ts[i]'(by omega)) := List.getElem?_eq_getElem _
  have := hc i _ s hx hsi
  exact ⟨ts[i]'(by omega), s.col, hx, (this.1 s.col).2 rfl, rfl, C53_view hn h hd s.col⟩

/-! An example: `struct { int; bool; bool; string }`; `view<int, const string>()` compiles, `view<bool>()` does not. -/

def exTypes : Types 4 String := ⟨fun j => ["int", "bool", "bool", "string"][j.val]'(j.isLt), "bool", "bool_"⟩

example : NoInternal exTypes [⟨"int", false⟩, ⟨"string", true⟩] ∧
    viewTypes exTypes false [⟨"int", false⟩, ⟨"string", true⟩] = some [⟨0, "int", false⟩, ⟨3, "string", true⟩] ∧
    viewTypes exTypes false [⟨"int", false⟩, ⟨"bool", false⟩] = none ∧ viewIdx exTypes true [1, 2] = [⟨1, "bool", true⟩, ⟨2, "bool", true⟩] := by
  refine ⟨⟨by decide, by decide, by decide⟩, by decide, by decide, by decide⟩

example : ∃ w ss, Reach (exEnv fun _ => false) w (upd (fun _ => none) 0 (some [exRec 1 "a"])) ∧
    viewTypes (n := 2) ⟨fun j => if j = 0 then "int" else "string", "bool", "bool_"⟩ false [⟨"string", false⟩] = some ss ∧
    ∃ s ∈ ss, view 0 s.col w = .ok ([exRec 1 "a"].map (· s.col)) w := by
  have h : Reach (exEnv fun _ => false) _ _ :=
    Reach.step Reach.init (op := .countValueCtor 0 1 (exRec 1 "a")) rfl (fun h => (by cases h)) rfl
  refine ⟨_, [⟨1, "string", false⟩], h, by decide, ⟨1, "string", false⟩, List.mem_cons_self .., ?_⟩
  exact C53_view (by decide) h rfl 1

/-! ### C94 -/

/-- **C94**. The bindings have the declared types: `std::span<X>` for a field of type `X`, or `std::span<const X>` for `const auto`. -/
theorem C94_types (T : Types n F) (m : BindMode) (j : Fin n) :
    (bindSpan T m j).col = j ∧ ((bindSpan T m j).elem, (bindSpan T m j).const) = bindType T m j := by
  have := C93_index T m.const [j]
  simp only [viewIdx, List.map_cons, List.map_nil, List.cons.injEq, and_true] at this
  simp [bindSpan, this, bindType]

/-- **C94**, `auto& [...] = v`: nothing is copied, the bindings are the spans of `v`, in every history. -/
theorem C94_reference (hn : 0 < n) (h : Reach env w S) {d e : Nat} {xs : List (Rec V)} (hd : S d = some xs) {m : BindMode} (hm : m.kind = .ref) :
    bindTarget env m d e w = .ok d w ∧ ∀ j, view d j w = .ok (xs.map (· j)) w := by
  obtain ⟨p, hp, _⟩ := (h.rep hn).some d xs hd
  refine ⟨?_, fun j => C53_view hn h hd j⟩
  simp [bindTarget, hm, bind, M.bind, get, hp, pure, M.pure]

/-- **C94**, `auto [...] = v`: the bindings are the spans of a new container with the same elements; a write through them does not change `v`. -/
theorem C94_copy (hn : 0 < n) (h : Reach env w S) {d e : Nat} {xs : List (Rec V)} (hd : S d = some xs) (he : S e = none) {m : BindMode}
    (hm : m.kind = .copy) {t : Nat} {w' : World V} (hb : bindTarget env m d e w = .ok t w') :
    t = e ∧ Reach env w' (upd S e (some xs)) ∧ (∀ j, view e j w' = .ok (xs.map (· j)) w' ∧ view d j w' = .ok (xs.map (· j)) w') ∧
    ∀ i j x, i < xs.length → ∃ w'', exec env (.setField e i j x) w' = .ok .unit w'' ∧ view e j w'' = .ok ((xs.map (· j)).set i x) w'' ∧
      ∀ k, view d k w'' = .ok (xs.map (· k)) w'' := by
  have hne : d ≠ e := fun h => by rw [h, he] at hd; cases hd
  have hc : exec env (.copyCtor e d) w = .ok .unit w' ∧ t = e := by
    simp only [bindTarget, hm, bind, M.bind, pure, M.pure] at hb
    simp only [exec, bind, M.bind, pure, M.pure]
    cases hcc : copyCtor env e d w with
    | ok a w1 => rw [hcc] at hb; cases hb; exact ⟨rfl, rfl⟩
    | exn w1 => rw [hcc] at hb; cases hb
    | ub => rw [hcc] at hb; cases hb
  have hr := h.step (op := .copyCtor e d) ⟨he, by simp [hd]⟩ (fun h => by cases h) hc.1
  have hS : specStep env S (.copyCtor e d) = upd S e (some xs) := by simp [specStep, hd]
  rw [hS] at hr
  have h1 : upd S e (some xs) e = some xs := by simp [upd]
  have h2 : upd S e (some xs) d = some xs := by simp [upd, hne, hd]
  refine ⟨hc.2, hr, fun j => ⟨C53_view hn hr h1 j, C53_view hn hr h2 j⟩, fun i j x hi => ?_⟩
  obtain ⟨w'', a, b, _, c⟩ := C53_write_field hn hr h1 hi j x
  exact ⟨w'', a, b, fun k => c d xs k hne h2⟩

/-- **C94**, `auto [...] = std::move(v)`: the bindings are the spans of a container that has the elements; `v` is empty. -/
theorem C94_move (hn : 0 < n) (h : Reach env w S) {d e : Nat} {xs : List (Rec V)} (hd : S d = some xs) (he : S e = none) {m : BindMode}
    (hm : m.kind = .move) : ∃ w', bindTarget env m d e w = .ok e w' ∧ (∀ j, view e j w' = .ok (xs.map (· j)) w' ∧ view d j w' = .ok [] w') ∧
      ∀ j s, spanOf d j w = .ok s w → spanOf e j w' = .ok s w' := by
  have hne : d ≠ e := fun h => by rw [h, he] at hd; cases hd
  obtain ⟨p, hp, _⟩ := (h.rep hn).some d xs hd
  obtain ⟨w', hw'⟩ : ∃ w', moveCtor (V := V) e d w = .ok () w' := ⟨_, by simp [moveCtor, hp]; rfl⟩
  have hx : exec env (.moveCtor e d) w = .ok .unit w' := by simp [exec, bind, M.bind, hw', pure, M.pure]
  have hr := h.step (op := .moveCtor e d) ⟨he, by simp [hd]⟩ (fun h => by cases h) hx
  have h1 : specStep env S (.moveCtor e d) e = some xs := by simp [specStep, upd, hd]
  have h2 : specStep env S (.moveCtor e d) d = some [] := by simp [specStep, upd, hne]
  refine ⟨w', by simp [bindTarget, hm, bind, M.bind, hw', pure, M.pure], fun j => ⟨C53_view hn hr h1 j, C53_view hn hr h2 j⟩, fun j s hs => ?_⟩
  have hw : w' = { w with vecs := upd (upd w.vecs d (some fun _ => ⟨[], 0, w.tick⟩)) e (some p) } := by
    simp [moveCtor, hp] at hw'; exact hw'.symm
  simp [spanOf, bind, M.bind, get, hp, pure, M.pure] at hs
  simp [spanOf, bind, M.bind, get, hw, upd, pure, M.pure, hs]

/-- **C94**, `auto [...] = v[i]`: binding `j` is the element `i` of the span of field `j`, so a write to it changes field `j` of this element of the container.
(For `std::vector<T>` the bindings would be the fields of a copy.) -/
theorem C94_element (hn : 0 < n) (h : Reach env w S) {d i : Nat} {xs : List (Rec V)} (hd : S d = some xs) (hi : i < xs.length) (j : Fin n) :
    ∃ b, bindElem d i j w = .ok (b, i) w ∧ spanOf d j w = .ok (b, xs.length) w ∧
    ∀ x, ∃ w', exec env (.setField d i j x) w = .ok .unit w' ∧ elem d i w' = .ok (setRec xs[i] j x) w' := by
  obtain ⟨p, hp, g⟩ := (h.rep hn).some d xs hd
  refine ⟨(p j).buf, ?_, ?_, fun x => ?_⟩
  · simp [bindElem, proxyAt, bind, M.bind, get, hp, pure, M.pure, g.size hn, g.len, hi]
  · simp [spanOf, bind, M.bind, get, hp, pure, M.pure, g.len]
  · obtain ⟨w', hw', _⟩ := C53_write_field hn h hd hi j x
    have hr := h.step (op := .setField d i j x) ⟨xs, hd, hi⟩ (fun h => by cases h) hw'
    have hS : specStep env S (.setField d i j x) d = some (xs.modify i fun r => setRec r j x) := by simp [specStep, upd, hd]
    have := (C51_observations hn hr hS).2.2.1 i (by simpa using hi)
    exact ⟨w', hw', by simpa [List.getElem_modify] using this⟩

/-- **C94**, when structured bindings of a container compile: exactly if `std` is associated with `T` or with the allocator. -/
theorem C94_compiles_partial (nsT nsAlloc : List String) : bindCompiles nsT nsAlloc = true ↔ "std" ∈ nsT ∨ "std" ∈ nsAlloc := by
  simp [bindCompiles, associated]

/-- They do not compile for types of the user with an allocator that is not in `std`, also not with `std::pmr::polymorphic_allocator<T>`. -/
theorem C94_adl_fails (nsT nsAlloc : List String) (h1 : "std" ∉ nsT) (h2 : "std" ∉ nsAlloc) : bindCompiles nsT nsAlloc = false := by
  cases h : bindCompiles nsT nsAlloc with
  | false => rfl
  | true => rcases (C94_compiles_partial _ _).1 h with h | h <;> contradiction

example : bindCompiles ["my"] ["std", "my"] = true ∧ bindCompiles ["my"] ["std::pmr", "my"] = false := by decide

example : ∃ w w', Reach (exEnv fun _ => false) w (upd (fun _ => none) 0 (some [exRec 1 "a"])) ∧
    bindTarget (exEnv fun _ => false) ⟨.copy, false⟩ 0 1 w = .ok 1 w' ∧ bindTarget (exEnv fun _ => false) ⟨.ref, false⟩ 0 1 w = .ok 0 w ∧
    view 1 0 w' = .ok [1] w' := by
  have h : Reach (exEnv fun _ => false) _ _ :=
    Reach.step Reach.init (op := .countValueCtor 0 1 (exRec 1 "a")) rfl (fun h => (by cases h)) rfl
  exact ⟨_, _, h, rfl, rfl, rfl⟩

end AnyAny.Dpv
