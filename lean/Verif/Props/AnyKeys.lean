import Verif.Spec.AnyKeys
import Verif.Props.NestedCmp
/-
C124: anys as keys of unordered containers. C125: anys as keys of ordered containers, and sorted.
-/
namespace AnyAny.Nested
open AnyAny.Poly (PO)

variable {F : Fns} {β : Type}

/-! ### unordered containers -/

/-- The requirements on the types of the values: `==` is an equivalence and values that are equal have the same hash. -/
structure Fns.Lawful (F : Fns) : Prop where
  refl : ∀ t x, F.eq t x x = true
  symm : ∀ t x y, F.eq t x y = true → F.eq t y x = true
  trans : ∀ t x y z, F.eq t x y = true → F.eq t y z = true → F.eq t x z = true
  hash : ∀ t x y h, F.eq t x y = true → F.hash t x h = F.hash t y h

private theorem equal_iff (a b : Key) : Equal F a b ↔ anyEq F a b = true := (C122_equal a b).symm

private theorem Fns.Lawful.equiv (L : F.Lawful) :
    (∀ a, anyEq F a a = true) ∧ (∀ a b, anyEq F a b = true → anyEq F b a = true) ∧
    ∀ a b c, anyEq F a b = true → anyEq F b c = true → anyEq F a c = true := C122_equivalence L.refl L.symm L.trans

private structure Inv (F : Fns) (h : List (MapOp β)) (m : UMap β) : Prop where
  pos : 0 < m.buckets
  cached : ∀ e ∈ m.entries, e.hash = anyHash F e.key
  distinct : m.entries.Pairwise fun e e' => anyEq F e.key e'.key = false
  has : ∀ q w, Has F h q w ↔ ∃ e ∈ m.entries, anyEq F e.key q = true ∧ e.val = w

private theorem hit_iff (L : F.Lawful) {h : List (MapOp β)} {m : UMap β} (I : Inv F h m) (k : Key) {e : Entry β} (he : e ∈ m.entries) :
    m.hit F k e = anyEq F e.key k := by
  cases c : anyEq F e.key k with
  | false => simp [UMap.hit, c]
  | true => simp [UMap.hit, c, I.cached e he, C122_hash L.hash _ _ c]

private theorem unique (L : F.Lawful) : ∀ {es : List (Entry β)}, es.Pairwise (fun e e' => anyEq F e.key e'.key = false) → ∀ {a b : Entry β} {q : Key},
    a ∈ es → b ∈ es → anyEq F a.key q = true → anyEq F b.key q = true → a = b
  | e :: es, hp, a, b, q, ha, hb, h1, h2 => by
    have hp' := List.pairwise_cons.1 hp
    have key : ∀ {x y : Key}, anyEq F x q = true → anyEq F y q = true → anyEq F x y = true :=
      fun hx hy => L.equiv.2.2 _ _ _ hx (L.equiv.2.1 _ _ hy)
    rcases List.mem_cons.1 ha with rfl | ha' <;> rcases List.mem_cons.1 hb with rfl | hb'
    · rfl
    · have := hp'.1 b hb'; rw [key h1 h2] at this; cases this
    · have := hp'.1 a ha'; rw [key h2 h1] at this; cases this
    · exact unique L hp'.2 ha' hb' h1 h2

private theorem find_iff (L : F.Lawful) {h : List (MapOp β)} {m : UMap β} (I : Inv F h m) (q : Key) (w : β) : m.find F q = some w ↔ Has F h q w := by
  rw [I.has, UMap.find]
  constructor
  · intro e
    obtain ⟨a, ha, rfl⟩ := Option.map_eq_some_iff.1 e
    have hm := List.mem_of_find?_eq_some ha
    exact ⟨a, hm, by rw [← hit_iff L I q hm]; exact List.find?_some ha, rfl⟩
  · rintro ⟨a, ha, hq, rfl⟩
    cases e : m.entries.find? (m.hit F q) with
    | none =>
      have := List.find?_eq_none.1 e a ha
      rw [hit_iff L I q ha] at this
      exact absurd hq this
    | some b =>
      have hm := List.mem_of_find?_eq_some e
      have hb := List.find?_some e
      rw [hit_iff L I q hm] at hb
      rw [unique L I.distinct ha hm hq hb]; rfl

private theorem find_none (L : F.Lawful) {h : List (MapOp β)} {m : UMap β} (I : Inv F h m) {q : Key} (e : m.find F q = none) :
    ∀ a ∈ m.entries, anyEq F a.key q = false := by
  intro a ha
  cases c : anyEq F a.key q with
  | false => rfl
  | true =>
    have := (find_iff L I q a.val).2 ((I.has q a.val).2 ⟨a, ha, c, rfl⟩)
    rw [e] at this; cases this

private theorem mem_setFirst {p : Entry β → Bool} {v : β} : ∀ {es : List (Entry β)} {a : Entry β}, (∃ e ∈ es, p e = true) →
    (∀ e ∈ es, ∀ e' ∈ es, p e = true → p e' = true → e = e') →
    es.Pairwise (fun e e' => ¬ (p e = true ∧ p e' = true)) →
    (a ∈ setFirst p v es ↔ (∃ e ∈ es, p e = true ∧ a = { e with val := v }) ∨ (a ∈ es ∧ p a = false))
  | [], a, h, _, _ => by simp at h
  | e :: es, a, h, hu, hp => by
    have hp' := List.pairwise_cons.1 hp
    cases c : p e with
    | true =>
      simp only [setFirst, c, if_true, List.mem_cons]
      constructor
      · rintro (rfl | ha)
        · exact .inl ⟨e, .inl rfl, c, rfl⟩
        · refine .inr ⟨.inr ha, ?_⟩
          have := hp'.1 a ha
          rw [c] at this; simpa using this
      · rintro (⟨e', he', hc, rfl⟩ | ⟨ha, hc⟩)
        · rcases he' with rfl | he'
          · exact .inl rfl
          · exact absurd ⟨c, hc⟩ (hp'.1 e' he')
        · rcases ha with rfl | ha
          · rw [c] at hc; cases hc
          · exact .inr ha
    | false =>
      simp only [setFirst, c, Bool.false_eq_true, if_false, List.mem_cons]
      have hex : ∃ e' ∈ es, p e' = true := by
        obtain ⟨e', he', hc⟩ := h
        rcases List.mem_cons.1 he' with rfl | he'
        · rw [c] at hc; cases hc
        · exact ⟨e', he', hc⟩
      rw [mem_setFirst hex (fun e he e' he' => hu e (.tail _ he) e' (.tail _ he')) hp'.2]
      constructor
      · rintro (rfl | ⟨e', he', hc, rfl⟩ | ⟨ha, hc⟩)
        · exact .inr ⟨.inl rfl, c⟩
        · exact .inl ⟨e', .inr he', hc, rfl⟩
        · exact .inr ⟨.inr ha, hc⟩
      · rintro (⟨e', he', hc, rfl⟩ | ⟨ha, hc⟩)
        · rcases he' with rfl | he'
          · rw [c] at hc; cases hc
          · exact .inr (.inl ⟨e', he', hc, rfl⟩)
        · rcases ha with rfl | ha
          · exact .inl rfl
          · exact .inr (.inr ⟨ha, hc⟩)

private theorem keys_setFirst (p : Entry β → Bool) (v : β) : ∀ es : List (Entry β),
    (setFirst p v es).map (fun e => (e.hash, e.key)) = es.map fun e => (e.hash, e.key)
  | [] => rfl
  | e :: es => by
    cases c : p e
    · simp [setFirst, c, keys_setFirst p v es]
    · simp [setFirst, c]

private theorem add (L : F.Lawful) {h : List (MapOp β)} {m : UMap β} (I : Inv F h m) {k : Key} (e : m.find F k = none) (v : β) {op : MapOp β}
    (hop : ∀ q w, Has F (op :: h) q w ↔ Has F h q w ∨ (anyEq F k q = true ∧ w = v)) :
    Inv F (op :: h) { m with entries := ⟨anyHash F k, k, v⟩ :: m.entries } := by
  have hn := find_none L I e
  refine ⟨I.pos, ?_, ?_, ?_⟩
  · intro a ha
    rcases List.mem_cons.1 ha with rfl | ha
    · rfl
    · exact I.cached a ha
  · refine List.pairwise_cons.2 ⟨fun a ha => ?_, I.distinct⟩
    cases c : anyEq F k a.key with
    | false => rfl
    | true => rw [← hn a ha, L.equiv.2.1 _ _ c]
  · intro q w
    rw [hop, I.has]
    constructor
    · rintro (⟨a, ha, h1, h2⟩ | ⟨h1, rfl⟩)
      · exact ⟨a, .tail _ ha, h1, h2⟩
      · exact ⟨_, .head _, h1, rfl⟩
    · rintro ⟨a, ha, h1, h2⟩
      rcases List.mem_cons.1 ha with rfl | ha
      · exact .inr ⟨h1, h2.symm⟩
      · exact .inl ⟨a, ha, h1, h2⟩

private theorem pair_hit (L : F.Lawful) {h : List (MapOp β)} {m : UMap β} (I : Inv F h m) (k : Key) :
    m.entries.Pairwise fun e e' => ¬ (m.hit F k e = true ∧ m.hit F k e' = true) := by
  refine List.Pairwise.imp_of_mem ?_ I.distinct
  intro a b ha hb hd ⟨h1, h2⟩
  rw [hit_iff L I k ha] at h1
  rw [hit_iff L I k hb] at h2
  rw [L.equiv.2.2 _ _ _ h1 (L.equiv.2.1 _ _ h2)] at hd
  cases hd

private theorem mem_eraseP {p : Entry β → Bool} : ∀ {es : List (Entry β)}, es.Pairwise (fun e e' => ¬ (p e = true ∧ p e' = true)) → ∀ a,
    a ∈ es.eraseP p ↔ a ∈ es ∧ p a = false
  | [], _, a => by simp
  | e :: es, hp, a => by
    have hp' := List.pairwise_cons.1 hp
    cases c : p e with
    | true =>
      rw [List.eraseP_cons_of_pos c, List.mem_cons]
      constructor
      · intro ha
        refine ⟨.inr ha, ?_⟩
        have := hp'.1 a ha
        rw [c] at this; simpa using this
      · rintro ⟨rfl | ha, hc⟩
        · rw [c] at hc; cases hc
        · exact ha
    | false =>
      rw [List.eraseP_cons_of_neg (by simp [c]), List.mem_cons, List.mem_cons, mem_eraseP hp'.2]
      constructor
      · rintro (rfl | ⟨ha, hc⟩)
        · exact ⟨.inl rfl, c⟩
        · exact ⟨.inr ha, hc⟩
      · rintro ⟨rfl | ha, hc⟩
        · exact .inl rfl
        · exact .inr ⟨ha, hc⟩

private theorem reach_inv (L : F.Lawful) {h : List (MapOp β)} {m : UMap β} (r : Reach F h m) : Inv F h m := by
  have E := L.equiv
  induction r with
  | empty n hn => exact ⟨hn, by simp, .nil, by simp [Has]⟩
  | @insert h m k v _ I =>
    unfold UMap.insert
    cases e : m.find F k with
    | some w0 =>
      refine ⟨I.pos, I.cached, I.distinct, fun q w => ?_⟩
      rw [← I.has, Has]
      refine ⟨?_, .inl⟩
      rintro (h1 | ⟨h1, _, h2⟩)
      · exact h1
      · obtain ⟨a, ha, h3, h4⟩ := (I.has k w0).1 ((find_iff L I k w0).1 e)
        exact absurd ((I.has q w0).2 ⟨a, ha, E.2.2 _ _ _ h3 ((equal_iff _ _).1 h1), h4⟩) (h2 w0)
    | none =>
      refine add L I e v fun q w => ?_
      rw [Has, equal_iff]
      constructor
      · rintro (h1 | ⟨h1, h2, _⟩)
        · exact .inl h1
        · exact .inr ⟨h1, h2⟩
      · rintro (h1 | ⟨h1, h2⟩)
        · exact .inl h1
        · refine .inr ⟨h1, h2, fun v' h3 => ?_⟩
          obtain ⟨a, ha, h4, _⟩ := (I.has q v').1 h3
          have := find_none L I e a ha
          rw [E.2.2 _ _ _ h4 (E.2.1 _ _ h1)] at this
          cases this
  | @assign h m k v _ I =>
    unfold UMap.assign
    cases e : m.find F k with
    | some w0 =>
      obtain ⟨a, ha, h3, _⟩ := (I.has k w0).1 ((find_iff L I k w0).1 e)
      have hp := pair_hit L I k
      have hex : ∃ e ∈ m.entries, m.hit F k e = true := ⟨a, ha, by rw [hit_iff L I k ha]; exact h3⟩
      have hu : ∀ e ∈ m.entries, ∀ e' ∈ m.entries, m.hit F k e = true → m.hit F k e' = true → e = e' := by
        intro e he e' he' h1 h2
        rw [hit_iff L I k he] at h1
        rw [hit_iff L I k he'] at h2
        exact unique L I.distinct he he' h1 h2
      have hk := keys_setFirst (m.hit F k) v m.entries
      refine ⟨I.pos, ?_, ?_, fun q w => ?_⟩
      · intro b hb
        rcases (mem_setFirst hex hu hp).1 hb with ⟨c, hc, _, rfl⟩ | ⟨hb, _⟩
        · exact I.cached c hc
        · exact I.cached b hb
      · have h1 : (m.entries.map fun e => (e.hash, e.key)).Pairwise fun x y => anyEq F x.2 y.2 = false := List.pairwise_map.2 I.distinct
        rw [← hk] at h1
        exact List.pairwise_map.1 h1
      · rw [Has, equal_iff]
        constructor
        · rintro (⟨h1, rfl⟩ | ⟨h1, h2⟩)
          · exact ⟨_, (mem_setFirst hex hu hp).2 (.inl ⟨a, ha, by rw [hit_iff L I k ha]; exact h3, rfl⟩), E.2.2 _ _ _ h3 h1, rfl⟩
          · obtain ⟨b, hb, h4, h5⟩ := (I.has q w).1 h2
            refine ⟨b, (mem_setFirst hex hu hp).2 (.inr ⟨hb, ?_⟩), h4, h5⟩
            rw [hit_iff L I k hb]
            cases c : anyEq F b.key k with
            | false => rfl
            | true => exact absurd (E.2.2 _ _ _ (E.2.1 _ _ c) h4) h1
        · rintro ⟨b, hb, h4, h5⟩
          rcases (mem_setFirst hex hu hp).1 hb with ⟨c, hc, h6, rfl⟩ | ⟨hb, h6⟩
          · rw [hit_iff L I k hc] at h6
            exact .inl ⟨E.2.2 _ _ _ (E.2.1 _ _ h6) h4, h5.symm⟩
          · rw [hit_iff L I k hb] at h6
            refine .inr ⟨fun h7 => ?_, (I.has q w).2 ⟨b, hb, h4, h5⟩⟩
            rw [E.2.2 _ _ _ h4 (E.2.1 _ _ h7)] at h6
            cases h6
    | none =>
      refine add L I e v fun q w => ?_
      rw [Has, equal_iff]
      constructor
      · rintro (h1 | ⟨_, h2⟩)
        · exact .inr h1
        · exact .inl h2
      · rintro (h1 | h1)
        · refine .inr ⟨fun h2 => ?_, h1⟩
          obtain ⟨a, ha, h4, _⟩ := (I.has q w).1 h1
          have := find_none L I e a ha
          rw [E.2.2 _ _ _ h4 (E.2.1 _ _ h2)] at this
          cases this
        · exact .inl h1
  | @erase h m k _ I =>
    unfold UMap.erase
    cases e : m.find F k with
    | some w0 =>
      have hp := pair_hit L I k
      refine ⟨I.pos, fun a ha => I.cached a (List.mem_of_mem_eraseP ha), I.distinct.sublist List.eraseP_sublist, fun q w => ?_⟩
      rw [Has, equal_iff, I.has]
      constructor
      · rintro ⟨h1, a, ha, h2, h3⟩
        refine ⟨a, (mem_eraseP hp a).2 ⟨ha, ?_⟩, h2, h3⟩
        rw [hit_iff L I k ha]
        cases c : anyEq F a.key k with
        | false => rfl
        | true => exact absurd (E.2.2 _ _ _ (E.2.1 _ _ c) h2) h1
      · rintro ⟨a, ha, h2, h3⟩
        obtain ⟨ha, hc⟩ := (mem_eraseP hp a).1 ha
        rw [hit_iff L I k ha] at hc
        refine ⟨fun h1 => ?_, a, ha, h2, h3⟩
        rw [E.2.2 _ _ _ h2 (E.2.1 _ _ h1)] at hc
        cases hc
    | none =>
      refine ⟨I.pos, I.cached, I.distinct, fun q w => ?_⟩
      rw [Has, ← I.has, equal_iff]
      refine ⟨And.right, fun h1 => ⟨fun h2 => ?_, h1⟩⟩
      obtain ⟨a, ha, h4, _⟩ := (I.has q w).1 h1
      have := find_none L I e a ha
      rw [E.2.2 _ _ _ h4 (E.2.1 _ _ h2)] at this
      cases this
  | @rehash h m n es hn hp _ I =>
    refine ⟨hn, fun a ha => I.cached a (hp.mem_iff.1 ha), ?_, fun q w => ?_⟩
    · refine (hp.pairwise_iff ?_).2 I.distinct
      intro a b hab
      cases c : anyEq F b.key a.key with
      | false => rfl
      | true => rw [E.2.1 _ _ c] at hab; cases hab
    · rw [I.has]
      constructor <;> rintro ⟨a, ha, h⟩
      · exact ⟨a, hp.mem_iff.2 ha, h⟩
      · exact ⟨a, hp.mem_iff.1 ha, h⟩

/-- C124: after any history of operations, with any numbers of buckets, `find` gives what the history says: keys are found by what they hold. -/
theorem C124_find (L : F.Lawful) {h : List (MapOp β)} {m : UMap β} (r : Reach F h m) (q : Key) (w : β) : m.find F q = some w ↔ Has F h q w :=
  find_iff L (reach_inv L r) q w

/-- C124: `insert` says that it inserted exactly if there was no equal key. -/
theorem C124_insert (L : F.Lawful) {h : List (MapOp β)} {m : UMap β} (r : Reach F h m) (k : Key) (v : β) :
    (m.insert F k v).2 = true ↔ ∀ w, ¬ Has F h k w := by
  unfold UMap.insert
  cases e : m.find F k with
  | some w => exact ⟨fun h => by simp at h, fun h' => absurd ((C124_find L r k w).1 e) (h' w)⟩
  | none => exact ⟨fun _ w hw => (by rw [(C124_find L r k w).2 hw] at e; cases e), fun _ => rfl⟩

/-- C124: `erase` erases one element exactly if there is an equal key, otherwise none. -/
theorem C124_erase (L : F.Lawful) {h : List (MapOp β)} {m : UMap β} (r : Reach F h m) (k : Key) :
    ((m.erase F k).2 = 1 ↔ ∃ w, Has F h k w) ∧ ((m.erase F k).2 = 0 ↔ ∀ w, ¬ Has F h k w) ∧
    (m.erase F k).1.entries.length + (m.erase F k).2 = m.entries.length := by
  have I := reach_inv L r
  unfold UMap.erase
  cases e : m.find F k with
  | some w =>
    have hw := (C124_find L r k w).1 e
    refine ⟨⟨fun _ => ⟨w, hw⟩, fun _ => rfl⟩, ⟨fun h => by simp at h, fun h => absurd hw (h w)⟩, ?_⟩
    obtain ⟨a, ha, h1, _⟩ := (I.has k w).1 hw
    have hh : m.hit F k a = true := by rw [hit_iff L I k ha]; exact h1
    have := List.length_eraseP_of_mem ha hh
    have hl := List.length_pos_of_mem ha
    simp only [this]
    omega
  | none =>
    have hn : ∀ w, ¬ Has F h k w := fun w hw => by rw [(C124_find L r k w).2 hw] at e; cases e
    exact ⟨⟨fun h => by simp at h, fun ⟨w, hw⟩ => absurd hw (hn w)⟩, ⟨fun _ => hn, fun _ => rfl⟩, rfl⟩

/-- C124: iterating meets every key with its value, and no two keys that are equal. -/
theorem C124_iterate (L : F.Lawful) {h : List (MapOp β)} {m : UMap β} (r : Reach F h m) :
    (∀ q w, Has F h q w ↔ ∃ e ∈ m.entries, Equal F e.key q ∧ e.val = w) ∧ m.entries.Pairwise fun e e' => ¬ Equal F e.key e'.key := by
  have I := reach_inv L r
  refine ⟨fun q w => ?_, I.distinct.imp fun hd => ?_⟩
  · rw [I.has]; simp only [equal_iff]
  · rw [equal_iff, hd]; simp

/-- The hash and equality of the examples: data by themselves, hash the data. -/
private def keysF : Fns where
  eq _ x y := x == y
  cmp _ x y := if x < y then .less else if x = y then .equivalent else .greater
  hash _ x _ := x

private theorem keysF_lawful : keysF.Lawful where
  refl _ _ := by simp [keysF]
  symm _ x y h := by simp [keysF] at h ⊢; exact h.symm
  trans _ x y z h h' := by simp [keysF] at h h' ⊢; exact h.trans h'
  hash _ x y _ h := by simp [keysF] at h ⊢; exact h

/-- Keys of two types with the same hash, an empty any, and a tree: with one bucket and then with seven. -/
private def history : List (MapOp Nat) :=
  [.erase (some (.mk 0 5 [])), .assign none 44, .insert (some (.mk 2 1 [none, some (.mk 0 5 [])])) 33, .insert none 22, .insert (some (.mk 1 5 [])) 11,
    .insert (some (.mk 0 5 [])) 10]

example : ∃ m : UMap Nat, Reach keysF history m ∧ m.buckets = 7 ∧ m.entries.length = 3 ∧ m.find keysF none = some 44 ∧ m.find keysF (some (.mk 1 5 [])) = some 11 ∧
    m.find keysF (some (.mk 0 5 [])) = none ∧ m.find keysF (some (.mk 2 1 [none, some (.mk 0 5 [])])) = some 33 ∧
    (m.insert keysF none 1).2 = false ∧ (m.erase keysF none).2 = 1 :=
  ⟨_, .erase _ (.assign _ _ (.insert _ _ (.rehash 7 _ (by decide) (List.Perm.refl _) (.insert _ _ (.insert _ _ (.insert _ _ (.empty 1 (by decide)))))))),
    by decide +kernel⟩

/-! ### ordered containers -/

/-- The requirements on the types of the values: their `<=>` orders all values of the type, and says `equivalent` where `==` is true. -/
structure Fns.Ordered (F : Fns) : Prop where
  total : ∀ t x y, F.cmp t x y ≠ .unordered
  refl : ∀ t x, F.cmp t x x = .equivalent
  rev : ∀ t x y, F.cmp t y x = rev (F.cmp t x y)
  ll : ∀ t x y z, F.cmp t x y = .less → F.cmp t y z = .less → F.cmp t x z = .less
  le : ∀ t x y z, F.cmp t x y = .less → F.cmp t y z = .equivalent → F.cmp t x z = .less
  el : ∀ t x y z, F.cmp t x y = .equivalent → F.cmp t y z = .less → F.cmp t x z = .less
  ee : ∀ t x y z, F.cmp t x y = .equivalent → F.cmp t y z = .equivalent → F.cmp t x z = .equivalent

private theorem less_iff (a b : Key) : keyLess F a b = some true ↔ anyCmp F a b = some .less := by
  unfold keyLess
  cases anyCmp F a b with
  | none => simp
  | some o => cases o <;> simp

private theorem notless_iff (a b : Key) : keyLess F a b = some false ↔ ∃ o, anyCmp F a b = some o ∧ o ≠ .less := by
  unfold keyLess
  cases anyCmp F a b with
  | none => simp
  | some o => cases o <;> simp

private theorem cmp_self (O : F.Ordered) (a : Key) : anyCmp F a a = some .equivalent := by
  have hs : ∀ s : Sign, s.cmp F s = .equivalent := by
    intro s
    cases s <;> simp [Sign.cmp, O.refl]
  have hn : ∀ {i s t}, ¬ Decides F (text a) (text a) i s t := by
    rintro i s t ⟨h1, h2, h3, _⟩
    rw [h1] at h2
    cases h2
    exact h3 (hs s)
  obtain ⟨o, h, h'⟩ := (C122_order_exact (F := F) a a).2 fun ⟨_, _, _, h⟩ => hn h
  rcases h' with ⟨rfl, _⟩ | ⟨_, _, _, h', _⟩
  · exact h
  · exact absurd h' hn

/-- `a` and `b` are comparable: `<=>` is defined and does not say `unordered`. -/
def Comparable (F : Fns) (a b : Key) : Prop := ∃ o, anyCmp F a b = some o ∧ o ≠ .unordered

/-- C125, exactly: anys can be keys of ordered containers, or be sorted, if and only if no comparison of them is undefined and every one is comparable with one
of every two that are ordered. -/
theorem C125_exact (O : F.Ordered) (S : Key → Prop) : StrictWeak S (keyLess F) ↔
    (∀ a b, S a → S b → (anyCmp F a b).isSome) ∧
    ∀ a b c, S a → S b → S c → anyCmp F a b = some .less → Comparable F a c ∨ Comparable F b c := by
  constructor
  · intro W
    have hd : ∀ a b, S a → S b → (anyCmp F a b).isSome := by
      intro a b ha hb
      have := W.defined a b ha hb
      simpa [keyLess] using this
    refine ⟨hd, fun a b c ha hb hc h => ?_⟩
    have un : ∀ x y, S x → S y → ¬ Comparable F x y → keyLess F x y = some false ∧ keyLess F y x = some false := by
      intro x y hx hy hn
      obtain ⟨o, ho⟩ := Option.isSome_iff_exists.1 (hd x y hx hy)
      obtain ⟨o', ho'⟩ := Option.isSome_iff_exists.1 (hd y x hy hx)
      have e : o = .unordered := Decidable.byContradiction fun h => hn ⟨o, ho, h⟩
      have e' := C122_order_reversed O.rev x y ho ho'
      subst e; subst e'
      exact ⟨(notless_iff _ _).2 ⟨_, ho, by simp⟩, (notless_iff _ _).2 ⟨_, ho', by simp [rev]⟩⟩
    refine Classical.byContradiction fun hn => ?_
    have h1 := un a c ha hc fun h => hn (.inl h)
    have h2 := un b c hb hc fun h => hn (.inr h)
    have := (W.incomp a c b ha hc hb h1.1 h1.2 h2.2 h2.1).1
    rw [(less_iff _ _).2 h] at this
    cases this
  · rintro ⟨hd, hc⟩
    have equ : ∀ x y, S x → S y → keyLess F x y = some false → keyLess F y x = some false → Comparable F x y →
        anyCmp F x y = some .equivalent ∧ anyCmp F y x = some .equivalent := by
      rintro x y hx hy h1 h2 ⟨o, ho, hn⟩
      obtain ⟨o', ho'⟩ := Option.isSome_iff_exists.1 (hd y x hy hx)
      have e := C122_order_reversed O.rev x y ho ho'
      obtain ⟨p, hp, hp'⟩ := (notless_iff _ _).1 h1
      obtain ⟨q, hq, hq'⟩ := (notless_iff _ _).1 h2
      rw [ho] at hp; cases hp
      rw [ho'] at hq; cases hq
      subst e
      cases o with
      | equivalent => exact ⟨ho, ho'⟩
      | less => exact absurd rfl hp'
      | greater => exact absurd rfl hq'
      | unordered => exact absurd rfl hn
    have half : ∀ a b c, S a → S b → S c → keyLess F a b = some false → keyLess F b a = some false → keyLess F b c = some false →
        keyLess F c b = some false → keyLess F a c = some false := by
      intro a b c ha hb hcS h1 h2 h3 h4
      obtain ⟨o, ho⟩ := Option.isSome_iff_exists.1 (hd a c ha hcS)
      refine (notless_iff _ _).2 ⟨o, ho, ?_⟩
      rintro rfl
      rcases hc a c b ha hcS hb ho with h | h
      · have := (C122_order_congruent O.le O.el O.ee b a c).2.1 (equ a b ha hb h1 h2 h).2 ho
        rw [(less_iff _ _).2 this] at h3
        cases h3
      · have := (C122_order_congruent O.le O.el O.ee a c b).1 ho (equ c b hcS hb h4 h3 h).1
        rw [(less_iff _ _).2 this] at h1
        cases h1
    refine ⟨fun a b ha hb => ?_, fun a _ => (notless_iff _ _).2 ⟨_, cmp_self O a, by simp⟩, fun a b c _ _ _ h1 h2 => ?_,
      fun a b c ha hb hcS h1 h2 h3 h4 => ⟨half a b c ha hb hcS h1 h2 h3 h4, half c b a hcS hb ha h4 h3 h2 h1⟩⟩
    · simpa [keyLess] using hd a b ha hb
    · rw [less_iff] at *
      exact C122_order_transitive O.ll O.le O.el O.ee a b c h1 h2

/-- C125 for anys that are all comparable with each other. -/
theorem C125_partial (O : F.Ordered) (S : Key → Prop) (h : ∀ a b, S a → S b → Comparable F a b) : StrictWeak S (keyLess F) := by
  refine (C125_exact O S).2 ⟨fun a b ha hb => ?_, fun a b c ha _ hc _ => .inl (h a c ha hc)⟩
  obtain ⟨o, ho, _⟩ := h a b ha hb
  rw [ho]; rfl

/-- C125 for anys that hold values of one type, without anys in them. -/
theorem C125_one_type (O : F.Ordered) (t : Nat) : StrictWeak (fun a => ∃ x, a = some (.mk t x [])) (keyLess F) := by
  refine C125_partial O _ ?_
  rintro _ _ ⟨x, rfl⟩ ⟨y, rfl⟩
  refine ⟨F.cmp t x y, ?_, O.total t x y⟩
  simp only [anyCmp, valCmp, ne_eq, not_true_eq_false, if_false, elemsCmp]
  cases F.cmp t x y <;> rfl

/-- C125 fails with values of two types: a third key of another type is neither less nor greater than two keys of which one is less than the other. -/
theorem C125_types_fails (S : Key → Prop) {t u x y z : Nat} {xs ys zs : List (Option Val)} (htu : t ≠ u) (ha : S (some (.mk t x xs)))
    (hb : S (some (.mk t y ys))) (hc : S (some (.mk u z zs))) (h : F.cmp t x y = .less) : ¬ StrictWeak S (keyLess F) := by
  intro W
  have e1 : ∀ p ps, keyLess F (some (.mk t p ps)) (some (.mk u z zs)) = some false := fun p ps => by simp [keyLess, anyCmp, valCmp, htu]
  have e2 : ∀ p ps, keyLess F (some (.mk u z zs)) (some (.mk t p ps)) = some false := fun p ps => by simp [keyLess, anyCmp, valCmp, Ne.symm htu]
  have := (W.incomp _ _ _ ha hc hb (e1 _ _) (e2 _ _) (e2 _ _) (e1 _ _)).1
  simp [keyLess, anyCmp, valCmp, h] at this

/-- C125 fails with an empty any among others: comparing them is undefined. -/
theorem C125_empty_fails (S : Key → Prop) {v : Val} (ha : S (some v)) (hb : S none) : ¬ StrictWeak S (keyLess F) := by
  intro W
  have := W.defined _ _ ha hb
  simp [keyLess, anyCmp] at this

private theorem keysF_ordered : keysF.Ordered := by
  refine ⟨?_, ?_, ?_, ?_, ?_, ?_, ?_⟩ <;> intros <;> simp only [keysF] at * <;> grind [rev]

example : StrictWeak (fun a => ∃ x, a = some (.mk 3 x [])) (keyLess keysF) ∧ keyLess keysF (some (.mk 3 1 [])) (some (.mk 3 2 [])) = some true :=
  ⟨C125_one_type keysF_ordered 3, by decide⟩

/-- Lists of one length with values of one type are comparable, at any depth. -/
example : StrictWeak (fun a => ∃ x y, a = some (.mk 0 x [some (.mk 1 y [])])) (keyLess keysF) := by
  refine C125_partial keysF_ordered _ ?_
  rintro _ _ ⟨x, y, rfl⟩ ⟨x', y', rfl⟩
  have e : ∀ p q, (keysF.cmp 0 p q = .less ∨ keysF.cmp 0 p q = .greater) ∨ keysF.cmp 0 p q = .equivalent := by
    intro p q; simp only [keysF]; grind
  simp only [Comparable, anyCmp, valCmp, elemsCmp, show keysF.cmp 1 = keysF.cmp 0 from rfl, ne_eq, not_true_eq_false, if_false]
  rcases e x x' with (h | h) | h <;> rcases e y y' with (g | g) | g <;> simp [h, g]

example : ¬ StrictWeak (fun _ => True) (keyLess keysF) :=
  C125_types_fails (t := 0) (u := 1) (x := 1) (y := 2) (z := 0) (xs := []) (ys := []) (zs := []) _ (by decide) trivial trivial trivial (by decide)

example : ¬ StrictWeak (fun a => a = none ∨ a = some (.mk 0 1 [])) (keyLess keysF) := C125_empty_fails _ (.inr rfl) (.inl rfl)

end AnyAny.Nested
