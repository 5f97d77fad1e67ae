import Verif.Model.Elem
import Verif.Props.Fields
/-
C103: element types of `data_parallel_vector`.
-/
namespace AnyAny.Elem
open AnyAny.Fields (fieldsCount magicGet Aggregate C59_count C59_get)

/-! ### What the synopsis says (data_parallel_vector.hpp:9-11) -/

/-- The types of elements that are documented to work, and the types of their parts: tuple-like objects, for which there are
`std::tuple_element`, `std::tuple_size` and `std::get`, and aggregates with less than 30 fields, none of them const (or an array, which is
no `FTy`). -/
inductive Documented : ElemTy → List FTy → Prop
  | tuple (ts) : Documented (.tuple ts) ts
  | array (t n) : Documented (.array t n) (List.replicate n t)
  | userTuple (ts c) : Documented (.userTuple ts c) ts
  | aggregate (fs c) : Aggregate c fs.length → fs.length < 30 → (∀ f ∈ fs, f.const = false) → Documented (.aggregate fs c) fs

/-- The parts are objects that are not const and not references: those of which there are vectors. -/
def Plain (ts : List FTy) : Prop := ∀ t ∈ ts, t.const = false ∧ t.ref = false

/-- The container of a part: of `bool_` for `bool`. -/
def colOf (boolT : Nat) (t : FTy) : Col := if t.ty = boolT then .bool_ else .ty t.ty

/-! ### Lemmas -/

theorem mapM_range_some {α} (n : Nat) (f : Nat → Option α) (l : List α) (hl : l.length = n) (h : ∀ i (hi : i < n), f i = some (l[i]'(by omega))) :
    (List.range n).mapM f = some l := by
  have key : ∀ k, (hk : k ≤ n) → (List.range k).mapM f = some (l.take k) := by
    intro k hk
    induction k with
    | zero => simp
    | succ k ih =>
      rw [List.range_succ, List.mapM_append, ih (by omega)]
      have : ([k].mapM f) = some [l[k]'(by omega)] := by simp [List.mapM_cons, h k (by omega)]
      rw [this]
      show some (l.take k ++ [l[k]'(by omega)]) = some (l.take (k + 1))
      rw [List.take_append_getElem]
  have := key n (Nat.le_refl n)
  rw [this, List.take_of_length_le (by omega)]

theorem mapM_get {α β} {f : α → Option β} {l : List α} {ys : List β} (h : l.mapM f = some ys) :
    ys.length = l.length ∧ ∀ (i : Nat) (x : α), l[i]? = some x → f x = ys[i]? := by
  induction l generalizing ys with
  | nil => simp at h; subst h; simp
  | cons a l ih =>
    rw [List.mapM_cons] at h
    cases ha : f a with
    | none => simp [ha] at h
    | some y =>
      cases hl : l.mapM f with
      | none => simp [ha, hl] at h
      | some zs =>
        simp [ha, hl] at h
        subst h
        obtain ⟨h1, h2⟩ := ih hl
        refine ⟨by simp [h1], fun i x hx => ?_⟩
        cases i with
        | zero => simp at hx; subst hx; simpa using ha
        | succ i => simpa using h2 i x (by simpa using hx)

/-- Of every documented type with at least one part, the traits find the number and the types of the parts. -/
theorem traits_of_documented {e : ElemTy} {ts : List FTy} (h : Documented e ts) (h0 : ts ≠ []) :
    tupleSize e = some ts.length ∧ ∀ i, tupleElement i e = if isTupleLike e then ts[i]? else ts[i]?.map FTy.removeCvref := by
  cases h with
  | tuple =>
    have : isTupleLike (.tuple ts) = true := by simpa [isTupleLike] using h0
    simp [tupleSize, tupleElement, this, stdTupleSize, stdTupleElement]
  | userTuple _ c =>
    have : isTupleLike (.userTuple ts c) = true := by simpa [isTupleLike] using h0
    simp [tupleSize, tupleElement, this, stdTupleSize, stdTupleElement]
  | array t n =>
    have hn : 0 < n := by
      rcases Nat.eq_zero_or_pos n with rfl | h
      · exact absurd rfl h0
      · exact h
    have : isTupleLike (.array t n) = true := by simpa [isTupleLike] using hn
    refine ⟨by simp [tupleSize, this, stdTupleSize], fun i => ?_⟩
    simp only [tupleElement, this, if_true, stdTupleElement, List.getElem?_replicate]
  | aggregate _ c ha hl hc =>
    have h1 : 1 ≤ ts.length := by
      cases ts with
      | nil => exact absurd rfl h0
      | cons _ _ => simp
    refine ⟨by simp [tupleSize, isTupleLike, C59_count ha (by omega)], fun i => ?_⟩
    simp [tupleElement, isTupleLike, fieldType, C59_get ha h1 (by omega)]

/-! ### C103 -/

/-- C103: of a documented type whose parts are plain objects, there is one container for each part, in order, of objects of
the type of that part. -/
theorem C103_columns (boolT : Nat) {e : ElemTy} {ts : List FTy} (h : Documented e ts) (h0 : ts ≠ []) (hp : Plain ts) :
    columns boolT e = some (ts.map (colOf boolT)) := by
  obtain ⟨h1, h2⟩ := traits_of_documented h h0
  unfold columns
  rw [h1]
  show (List.range ts.length).mapM _ = _
  refine mapM_range_some _ _ _ (by simp) fun i hi => ?_
  have hm : ts[i] ∈ ts := List.getElem_mem hi
  have e2 : tupleElement i e = some ts[i] := by
    rw [h2, List.getElem?_eq_getElem hi]
    obtain ⟨h3, h4⟩ := hp _ hm
    split
    · rfl
    · simp only [Option.map_some, FTy.removeCvref]
      cases hx : ts[i] with
      | mk t c r => rw [hx] at h3 h4; simp only at h3 h4; rw [h3, h4]
  obtain ⟨h3, h4⟩ := hp _ hm
  rw [e2]
  simp [containerFor, h3, h4, colOf]

/-- C103: reading part `i` of an element gives that part. -/
theorem C103_get {α} {e : ElemTy} {ts : List FTy} (h : Documented e ts) (h0 : ts ≠ []) (vs : List α) (hv : vs.length = ts.length) (i : Nat) :
    get i e vs = vs[i]? := by
  have hv0 : ∀ i : Nat, ts[i]? = none → vs[i]? = none := by
    intro i hi
    rw [List.getElem?_eq_none_iff] at hi ⊢
    omega
  cases h with
  | tuple =>
    have : isTupleLike (.tuple ts) = true := by simpa [isTupleLike] using h0
    simp only [get, this, if_true, stdTupleElement]
    cases hi : ts[i]? with
    | none => exact (hv0 i hi).symm
    | some _ => rfl
  | userTuple _ c =>
    have : isTupleLike (.userTuple ts c) = true := by simpa [isTupleLike] using h0
    simp only [get, this, if_true, stdTupleElement]
    cases hi : ts[i]? with
    | none => exact (hv0 i hi).symm
    | some _ => rfl
  | array t n =>
    have hn : 0 < n := by
      rcases Nat.eq_zero_or_pos n with rfl | h
      · exact absurd rfl h0
      · exact h
    have : isTupleLike (.array t n) = true := by simpa [isTupleLike] using hn
    simp only [get, this, if_true, stdTupleElement]
    by_cases hi : i < n
    · simp [hi]
    · have : vs[i]? = none := by rw [List.getElem?_eq_none_iff]; simp at hv; omega
      simp [hi, this]
  | aggregate _ c ha hl hc =>
    have h1 : 1 ≤ ts.length := by
      cases ts with
      | nil => exact absurd rfl h0
      | cons _ _ => simp
    simp only [get, isTupleLike, Bool.false_eq_true, if_false]
    exact C59_get (hv ▸ ha) (by omega) (by omega) i

/-- A pair, an array, an aggregate of three fields one of which is a `bool` (type 0). -/
example : Documented (.tuple [⟨1, false, false⟩, ⟨0, false, false⟩]) [⟨1, false, false⟩, ⟨0, false, false⟩] ∧
    columns 0 (.tuple [⟨1, false, false⟩, ⟨0, false, false⟩]) = some [.ty 1, .bool_] ∧
    columns 0 (.array ⟨5, false, false⟩ 3) = some [.ty 5, .ty 5, .ty 5] ∧
    columns 0 (.aggregate [⟨1, false, false⟩, ⟨0, false, false⟩, ⟨7, false, false⟩] fun k => k == 3) = some [.ty 1, .bool_, .ty 7] ∧
    get 2 (.aggregate [⟨1, false, false⟩, ⟨0, false, false⟩, ⟨7, false, false⟩] fun k => k == 3) ["a", "b", "c"] = some "c" :=
  ⟨.tuple _, by decide, by decide, by decide, by decide⟩

/-- C103, other types: whatever the type, if the container compiles then the type is tuple-like or an aggregate, and there is one
container for each of its parts, in order, of objects of the type of that part. In particular `std::variant` does not
compile. (Without any part, nothing can be done with the container: `size()` is that of the first one.) -/
theorem C103_right (boolT : Nat) (e : ElemTy) (cs : List Col) (h : columns boolT e = some cs)
    (hne : cs ≠ []) :
    (∃ ts, cs = ts.map (colOf boolT) ∧ (e = .tuple ts ∨ (∃ c, e = .userTuple ts c) ∨ (∃ c, e = .aggregate ts c) ∨
      ∃ t n, e = .array t n ∧ ts = List.replicate n t)) := by
  unfold columns at h
  cases hs : tupleSize e with
  | none => rw [hs] at h; cases h
  | some n =>
    rw [hs] at h
    change (List.range n).mapM _ = some cs at h
    obtain ⟨hl, hf⟩ := mapM_get h
    have hlen : cs.length = n := by simpa using hl
    have hget : ∀ i (hi : i < n), (tupleElement i e).bind (containerFor boolT) = some (cs[i]'(by omega)) := by
      intro i hi
      have h2 := hf i i (by simp [hi])
      rw [List.getElem?_eq_getElem (show i < cs.length by omega)] at h2
      exact h2
    have fin : ∀ ts : List FTy, ts.length = n →
        (∀ i (hi : i < n), ∃ x, tupleElement i e = some x ∧ x.ty = (ts[i]?.map FTy.ty).getD 0) → cs = ts.map (colOf boolT) := by
      intro ts hl hh
      refine List.ext_getElem (by simp [hlen, hl]) fun i h1 h2 => ?_
      obtain ⟨x, hx, hty⟩ := hh i (by omega)
      have h3 := hget i (by omega)
      rw [hx] at h3
      simp only [Option.bind_some, containerFor] at h3
      split at h3
      · cases h3
      · have hi : i < ts.length := by omega
        rw [List.getElem?_eq_getElem hi] at hty
        simp only [Option.map_some, Option.getD_some] at hty
        rw [hty] at h3
        simpa [colOf] using (Option.some.inj h3).symm
    cases e with
    | tuple ts =>
      by_cases h0 : isTupleLike (.tuple ts) = true
      · simp only [tupleSize, h0, if_true, stdTupleSize, Option.some.injEq] at hs
        refine ⟨ts, fin ts hs fun i hi => ⟨ts[i], ?_, ?_⟩, .inl rfl⟩
        · simp [tupleElement, h0, stdTupleElement]
        · simp [List.getElem?_eq_getElem (show i < ts.length by omega)]
      · simp [tupleSize, h0] at hs
    | userTuple ts c =>
      by_cases h0 : isTupleLike (.userTuple ts c) = true
      · simp only [tupleSize, h0, if_true, stdTupleSize, Option.some.injEq] at hs
        refine ⟨ts, fin ts hs fun i hi => ⟨ts[i], ?_, ?_⟩, .inr (.inl ⟨c, rfl⟩)⟩
        · simp [tupleElement, h0, stdTupleElement]
        · simp [List.getElem?_eq_getElem (show i < ts.length by omega)]
      · simp [tupleSize, h0] at hs
    | array t m =>
      by_cases h0 : isTupleLike (.array t m) = true
      · simp only [tupleSize, h0, if_true, stdTupleSize, Option.some.injEq] at hs
        refine ⟨List.replicate m t, fin _ (by simp [hs]) fun i hi => ⟨t, ?_, ?_⟩, .inr (.inr (.inr ⟨t, m, rfl, rfl⟩))⟩
        · simp [tupleElement, h0, stdTupleElement]; omega
        · simp [List.getElem?_replicate, show i < m by omega]
      · simp [tupleSize, h0] at hs
    | aggregate fs c =>
      simp only [tupleSize, isTupleLike, Bool.false_eq_true, if_false] at hs
      have hn : 0 < n := by
        rcases Nat.eq_zero_or_pos n with rfl | hn
        · exact absurd (List.eq_nil_of_length_eq_zero hlen) hne
        · exact hn
      have el : ∀ i, i < n → ∃ x, magicGet c fs i = some x := by
        intro i hi
        have h3 := hget i hi
        cases hm : magicGet c fs i with
        | none => simp [tupleElement, isTupleLike, fieldType, hm] at h3
        | some x => exact ⟨x, rfl⟩
      have hfs : fs.length = n := by
        obtain ⟨x, hx⟩ := el 0 hn
        have := (Fields.C59_get_right hx).1
        rw [hs] at this
        exact (Option.some.inj this).symm
      refine ⟨fs, fin fs hfs fun i hi => ?_, .inr (.inr (.inl ⟨c, rfl⟩))⟩
      obtain ⟨x, hx⟩ := el i hi
      refine ⟨x.removeCvref, by simp [tupleElement, isTupleLike, fieldType, hx], ?_⟩
      rw [(Fields.C59_get_right hx).2]
      rfl
    | variant ts =>
      by_cases h0 : isTupleLike (.variant ts) = true
      · simp [tupleSize, h0, stdTupleSize] at hs
      · simp [tupleSize, h0] at hs
    | other => simp [tupleSize, isTupleLike] at hs

example : columns 0 (.variant [⟨1, false, false⟩, ⟨2, false, false⟩]) = none ∧ columns 0 .other = none ∧
    columns 0 (.tuple [⟨3, false, false⟩]) = some [.ty 3] := by decide

/-- C103: an element can be read as a whole (`T x = v[i]`) for every documented type that can be made from its parts, except
arrays where aggregates can be made with parentheses. -/
theorem C103_value_partial {e : ElemTy} {ts : List FTy} (h : Documented e ts) (paren : Bool) (hc : ∀ ts c, e = .userTuple ts c → c = true)
    (ha : ∀ t n, e = .array t n → paren = false) : toValue paren e = true := by
  cases h with
  | tuple => cases paren <;> rfl
  | array t n => rw [ha t n rfl]; rfl
  | userTuple _ c => rw [hc ts c rfl]; cases paren <;> rfl
  | aggregate => cases paren <;> rfl

/-- C103: arrays are tuple-like and have containers, but their elements cannot be read as a whole where aggregates can be made with
parentheses: `std::array<T, 2>(a, b)` does not compile. With braces it does. -/
theorem C103_array_fails (boolT : Nat) (t : FTy) (n : Nat) (hn : 0 < n) (ht : t.const = false ∧ t.ref = false) :
    Documented (.array t n) (List.replicate n t) ∧ columns boolT (.array t n) = some (List.replicate n (colOf boolT t)) ∧
    toValue true (.array t n) = false ∧ toValue false (.array t n) = true := by
  refine ⟨.array t n, ?_, rfl, rfl⟩
  rw [C103_columns boolT (.array t n) (by cases n <;> simp_all [List.replicate]) (fun x hx => by rw [List.eq_of_mem_replicate hx]; exact ht)]
  simp

/-- C103: tuple-like types with a part that is const or a reference do not compile, although only for aggregates the synopsis excludes const
parts. Of aggregates, references are stored as copies of what they refer to. -/
theorem C103_const_fails (boolT : Nat) (ts : List FTy) (t : FTy) (ht : t ∈ ts) (h : t.const = true ∨ t.ref = true) :
    Documented (.tuple ts) ts ∧ columns boolT (.tuple ts) = none := by
  refine ⟨.tuple ts, ?_⟩
  cases hc : columns boolT (.tuple ts) with
  | none => rfl
  | some cs =>
    exfalso
    have h0 : isTupleLike (.tuple ts) = true := by cases ts <;> simp_all [isTupleLike]
    simp only [columns, tupleSize, h0, if_true, stdTupleSize] at hc
    change (List.range ts.length).mapM _ = some cs at hc
    obtain ⟨hl, hf⟩ := mapM_get hc
    obtain ⟨i, hi, rfl⟩ := List.getElem_of_mem ht
    have h2 := hf i i (by simp [hi])
    simp only [List.length_range] at hl
    rw [List.getElem?_eq_getElem (show i < cs.length by omega)] at h2
    have h3 : tupleElement i (.tuple ts) = some ts[i] := by simp [tupleElement, h0, stdTupleElement]
    rw [h3] at h2
    have h4 : containerFor boolT ts[i] = none := by
      unfold containerFor
      rcases h with h | h <;> simp [h]
    have h5 : (some ts[i] : Option FTy).bind (containerFor boolT) = none := by simpa using h4
    have h6 : (some ts[i] : Option FTy).bind (containerFor boolT) = some cs[i] := h2
    rw [h5] at h6
    cases h6

example : columns 0 (.tuple [⟨1, true, false⟩, ⟨2, false, false⟩]) = none ∧
    columns 0 (.aggregate [⟨1, false, true⟩, ⟨2, false, false⟩] fun k => k == 2) = some [.ty 1, .ty 2] := by decide

end AnyAny.Elem
