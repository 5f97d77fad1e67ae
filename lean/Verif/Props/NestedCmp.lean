import Verif.Spec.NestedCmp
import Verif.Props.Nested
/-
C122: comparison and hash of anys with anys in their values.
-/
namespace AnyAny.Nested
open AnyAny.Poly (PO)

variable {F : Fns}

/-! ### equality -/

/-- Texts that are equal sign by sign, as a function. -/
private def scanEq (F : Fns) : List Sign → List Sign → Bool
  | [], [] => true
  | .empty :: l, .empty :: r => scanEq F l r
  | .stop :: l, .stop :: r => scanEq F l r
  | .value t x :: l, .value u y :: r => (decide (t = u) && F.eq t x y) && scanEq F l r
  | _, _ => false

private theorem scanEq_iff : ∀ l r : List Sign, scanEq F l r = true ↔
    l.length = r.length ∧ ∀ (i : Nat) a b, l[i]? = some a → r[i]? = some b → a.same F b := by
  have step : ∀ (a b : Sign) (l r : List Sign), (l.length = r.length ∧ ∀ (i : Nat) a b, l[i]? = some a → r[i]? = some b → a.same F b) ∧ a.same F b ↔
      (a :: l).length = (b :: r).length ∧ ∀ (i : Nat) c d, (a :: l)[i]? = some c → (b :: r)[i]? = some d → c.same F d := by
    intro a b l r
    constructor
    · rintro ⟨⟨h1, h2⟩, h3⟩
      refine ⟨by simp [h1], fun i c d hc hd => ?_⟩
      cases i with
      | zero => simp at hc hd; subst hc hd; exact h3
      | succ i => exact h2 i c d (by simpa using hc) (by simpa using hd)
    · rintro ⟨h1, h2⟩
      exact ⟨⟨by simpa using h1, fun i c d hc hd => h2 (i + 1) c d (by simpa using hc) (by simpa using hd)⟩, h2 0 a b rfl rfl⟩
  intro l
  induction l with
  | nil => intro r; cases r <;> simp [scanEq]
  | cons a l ih =>
    intro r
    cases r with
    | nil => cases a <;> simp [scanEq]
    | cons b r =>
      rw [← step, ← ih r]
      cases a <;> cases b <;> simp [scanEq, Sign.same, and_comm]

mutual
private theorem scan_any (a b : Option Val) (l r : List Sign) : scanEq F (text a ++ l) (text b ++ r) = (anyEq F a b && scanEq F l r) := by
  cases a with
  | none =>
    cases b with
    | none => simp [text, anyEq, scanEq]
    | some w => cases w; simp [text, textVal, anyEq, scanEq]
  | some v =>
    cases b with
    | none => cases v; simp [text, textVal, anyEq, scanEq]
    | some w =>
      simp only [text, anyEq]
      exact scan_val v w l r
private theorem scan_val (a b : Val) (l r : List Sign) : scanEq F (textVal a ++ l) (textVal b ++ r) = (valEq F a b && scanEq F l r) := by
  obtain ⟨t, x, xs⟩ := a
  obtain ⟨u, y, ys⟩ := b
  simp only [textVal, valEq, List.cons_append, scanEq]
  rw [scan_elems xs ys l r]
  by_cases h : t = u <;> simp [h, Bool.and_assoc]
private theorem scan_elems (xs ys : List (Option Val)) (l r : List Sign) :
    scanEq F (textElems xs ++ l) (textElems ys ++ r) = ((xs.length == ys.length && elemsEq F xs ys) && scanEq F l r) := by
  cases xs with
  | nil =>
    cases ys with
    | nil => simp [textElems, elemsEq, scanEq]
    | cons y ys =>
      match y with
      | none => simp [textElems, text, scanEq]
      | some (.mk u y zs) => simp [textElems, text, textVal, scanEq]
  | cons x xs =>
    cases ys with
    | nil =>
      match x with
      | none => simp [textElems, text, scanEq]
      | some (.mk u y zs) => simp [textElems, text, textVal, scanEq]
    | cons y ys =>
      simp only [textElems, List.append_assoc]
      rw [scan_any x y, scan_elems xs ys l r]
      simp only [elemsEq, List.length_cons]
      have : ((xs.length + 1 == ys.length + 1) : Bool) = (xs.length == ys.length) := by simp
      rw [this]
      cases anyEq F x y <;> cases (xs.length == ys.length) <;> simp
end

private theorem anyEq_scan (a b : Option Val) : anyEq F a b = scanEq F (text a) (text b) := by
  have := scan_any (F := F) a b [] []
  simp only [List.append_nil, scanEq, Bool.and_true] at this
  exact this.symm

/-- C122: `a == b` is true iff `a` and `b`, written out with everything in them, have equal signs at all places. -/
theorem C122_equal (a b : Option Val) : anyEq F a b = true ↔
    (text a).length = (text b).length ∧ ∀ (i : Nat) s t, (text a)[i]? = some s → (text b)[i]? = some t → s.same F t := by
  rw [anyEq_scan, scanEq_iff]

private theorem scanEq_refl (hF : ∀ t x, F.eq t x x = true) : ∀ l, scanEq F l l = true
  | [] => rfl
  | .empty :: l => by simp [scanEq, scanEq_refl hF l]
  | .stop :: l => by simp [scanEq, scanEq_refl hF l]
  | .value t x :: l => by simp [scanEq, scanEq_refl hF l, hF]

/-- Different values have different texts. -/
theorem text_injective {a b : Option Val} (h : text a = text b) : a = b := by
  let rec any : ∀ (a b : Option Val) (l r : List Sign), text a ++ l = text b ++ r → a = b ∧ l = r
    | none, none, l, r, h => by simpa [text] using h
    | none, some (.mk u y ys), l, r, h => by simp [text, textVal] at h
    | some (.mk u y ys), none, l, r, h => by simp [text, textVal] at h
    | some v, some w, l, r, h => by
      obtain ⟨h1, h2⟩ := val v w l r (by simpa [text] using h)
      exact ⟨by rw [h1], h2⟩
  exact (any a b [] [] (by simpa using h)).1
where
  val : ∀ (a b : Val) (l r : List Sign), textVal a ++ l = textVal b ++ r → a = b ∧ l = r
    | .mk t x xs, .mk u y ys, l, r, h => by
      simp only [textVal, List.cons_append, List.cons.injEq, Sign.value.injEq] at h
      obtain ⟨⟨rfl, rfl⟩, h⟩ := h
      obtain ⟨rfl, rfl⟩ := elems xs ys l r h
      exact ⟨rfl, rfl⟩
  elems : ∀ (xs ys : List (Option Val)) (l r : List Sign), textElems xs ++ l = textElems ys ++ r → xs = ys ∧ l = r
    | [], [], l, r, h => by simpa [textElems] using h
    | [], none :: ys, l, r, h => by simp [textElems, text] at h
    | [], some (.mk u y zs) :: ys, l, r, h => by simp [textElems, text, textVal] at h
    | none :: ys, [], l, r, h => by simp [textElems, text] at h
    | some (.mk u y zs) :: ys, [], l, r, h => by simp [textElems, text, textVal] at h
    | none :: xs, none :: ys, l, r, h => by
      simp only [textElems, text, List.cons_append, List.nil_append, List.append_assoc, List.cons.injEq, true_and] at h
      obtain ⟨rfl, rfl⟩ := elems xs ys l r h
      exact ⟨rfl, rfl⟩
    | none :: xs, some (.mk u y zs) :: ys, l, r, h => by simp [textElems, text, textVal] at h
    | some (.mk u y zs) :: xs, none :: ys, l, r, h => by simp [textElems, text, textVal] at h
    | some v :: xs, some w :: ys, l, r, h => by
      simp only [textElems, text, List.append_assoc] at h
      obtain ⟨rfl, h2⟩ := val v w _ _ h
      obtain ⟨rfl, rfl⟩ := elems xs ys l r h2
      exact ⟨rfl, rfl⟩

/-- C122: if `==` of every type compares the data as equality does, `a == b` is true iff `a` and `b` hold the same: same types, same data, and the same in all
anys inside. -/
theorem C122_structural (hF : ∀ t x y, F.eq t x y = true ↔ x = y) (a b : Option Val) : anyEq F a b = true ↔ a = b := by
  rw [anyEq_scan]
  constructor
  · intro h
    refine text_injective ?_
    generalize text a = l at h
    generalize text b = r at h
    induction l generalizing r with
    | nil => cases r with
      | nil => rfl
      | cons b r => simp [scanEq] at h
    | cons a l ih =>
      cases r with
      | nil => cases a <;> simp [scanEq] at h
      | cons b r =>
        cases a <;> cases b <;> simp only [scanEq, Bool.and_eq_true, decide_eq_true_eq, Bool.false_eq_true] at h
        · rw [ih r h]
        · obtain ⟨⟨rfl, h1⟩, h2⟩ := h
          rw [(hF _ _ _).1 h1, ih r h2]
        · rw [ih r h]
  · rintro rfl
    exact scanEq_refl (fun t x => (hF t x x).2 rfl) _

/-- C122: `==` of anys with anys in their values is an equivalence if `==` of the data of every type is. -/
theorem C122_equivalence (hrefl : ∀ t x, F.eq t x x = true) (hsymm : ∀ t x y, F.eq t x y = true → F.eq t y x = true)
    (htrans : ∀ t x y z, F.eq t x y = true → F.eq t y z = true → F.eq t x z = true) :
    (∀ a, anyEq F a a = true) ∧ (∀ a b, anyEq F a b = true → anyEq F b a = true) ∧
    ∀ a b c, anyEq F a b = true → anyEq F b c = true → anyEq F a c = true := by
  have symm : ∀ a b : Sign, a.same F b → b.same F a := by
    intro a b h
    cases a <;> cases b <;> simp only [Sign.same] at h ⊢
    obtain ⟨rfl, h⟩ := h
    exact ⟨rfl, hsymm _ _ _ h⟩
  have trans : ∀ a b c : Sign, a.same F b → b.same F c → a.same F c := by
    intro a b c h h'
    cases a <;> cases b <;> cases c <;> simp only [Sign.same] at h h' ⊢
    obtain ⟨rfl, h⟩ := h
    obtain ⟨rfl, h'⟩ := h'
    exact ⟨rfl, htrans _ _ _ _ h h'⟩
  refine ⟨fun a => by rw [anyEq_scan]; exact scanEq_refl hrefl _, fun a b h => ?_, fun a b c h h' => ?_⟩
  · rw [C122_equal] at h ⊢
    exact ⟨h.1.symm, fun i s t hs ht => symm _ _ (h.2 i t s ht hs)⟩
  · rw [C122_equal] at h h' ⊢
    refine ⟨h.1.trans h'.1, fun i s t hs ht => ?_⟩
    have hi : i < (text b).length := by
      have := (List.getElem?_eq_some_iff.1 hs).1
      omega
    exact trans _ _ _ (h.2 i s _ hs (List.getElem?_eq_getElem hi)) (h'.2 i _ t (List.getElem?_eq_getElem hi) ht)

/-! ### hash -/

mutual
private theorem hash_any (hF : ∀ t x y h, F.eq t x y = true → F.hash t x h = F.hash t y h) :
    ∀ a b : Option Val, anyEq F a b = true → anyHash F a = anyHash F b
  | none, none, _ => rfl
  | none, some _, h => by simp [anyEq] at h
  | some _, none, h => by simp [anyEq] at h
  | some v, some w, h => by
    simp only [anyHash]
    exact hash_val hF v w (by simpa [anyEq] using h)
private theorem hash_val (hF : ∀ t x y h, F.eq t x y = true → F.hash t x h = F.hash t y h) :
    ∀ a b : Val, valEq F a b = true → valHash F a = valHash F b
  | .mk t x xs, .mk u y ys, h => by
    simp only [valEq] at h
    by_cases e : t = u
    · rw [if_pos e] at h
      subst e
      simp only [Bool.and_eq_true, beq_iff_eq] at h
      simp only [valHash]
      rw [hash_elems hF xs ys h.2.1 h.2.2, hF _ _ _ _ h.1]
    · rw [if_neg e] at h
      cases h
private theorem hash_elems (hF : ∀ t x y h, F.eq t x y = true → F.hash t x h = F.hash t y h) :
    ∀ xs ys : List (Option Val), xs.length = ys.length → elemsEq F xs ys = true → elemsHash F xs = elemsHash F ys
  | [], [], _, _ => rfl
  | [], _ :: _, h, _ => by simp at h
  | _ :: _, [], h, _ => by simp at h
  | x :: xs, y :: ys, h, h' => by
    simp only [elemsEq, Bool.and_eq_true] at h'
    simp only [elemsHash]
    rw [hash_any hF x y h'.1, hash_elems hF xs ys (by simpa using h) h'.2]
end

/-- C122: equal anys have equal hashes, whatever is in them, if that holds for the data of every type. -/
theorem C122_hash (hF : ∀ t x y h, F.eq t x y = true → F.hash t x h = F.hash t y h) (a b : Option Val) (h : anyEq F a b = true) :
    anyHash F a = anyHash F b := hash_any hF a b h

mutual
private theorem hash_any_inj (h0 : ∀ t x hs, F.hash t x hs ≠ 0) (hF : ∀ t x hs u y hs', F.hash t x hs = F.hash u y hs' → t = u ∧ x = y ∧ hs = hs') :
    ∀ a b : Option Val, anyHash F a = anyHash F b → a = b
  | none, none, _ => rfl
  | none, some (.mk t x xs), h => absurd h.symm (h0 t x _)
  | some (.mk t x xs), none, h => absurd h (h0 t x _)
  | some v, some w, h => by rw [hash_val_inj h0 hF v w h]
private theorem hash_val_inj (h0 : ∀ t x hs, F.hash t x hs ≠ 0) (hF : ∀ t x hs u y hs', F.hash t x hs = F.hash u y hs' → t = u ∧ x = y ∧ hs = hs') :
    ∀ a b : Val, valHash F a = valHash F b → a = b
  | .mk t x xs, .mk u y ys, h => by
    obtain ⟨rfl, rfl, h2⟩ := hF _ _ _ _ _ _ h
    rw [hash_elems_inj h0 hF xs ys h2]
private theorem hash_elems_inj (h0 : ∀ t x hs, F.hash t x hs ≠ 0) (hF : ∀ t x hs u y hs', F.hash t x hs = F.hash u y hs' → t = u ∧ x = y ∧ hs = hs') :
    ∀ xs ys : List (Option Val), elemsHash F xs = elemsHash F ys → xs = ys
  | [], [], _ => rfl
  | [], _ :: _, h => by simp [elemsHash] at h
  | _ :: _, [], h => by simp [elemsHash] at h
  | x :: xs, y :: ys, h => by
    simp only [elemsHash, List.cons.injEq] at h
    rw [hash_any_inj h0 hF x y h.1, hash_elems_inj h0 hF xs ys h.2]
end

/-- C122: hashes distinguish what the hash functions of the types distinguish: if these have no collisions (with each other, or with 0, the hash of an empty any),
then anys that hold anything different at any depth have different hashes. -/
theorem C122_hash_distinguishes (h0 : ∀ t x hs, F.hash t x hs ≠ 0)
    (hF : ∀ t x hs u y hs', F.hash t x hs = F.hash u y hs' → t = u ∧ x = y ∧ hs = hs') (a b : Option Val) (h : a ≠ b) :
    anyHash F a ≠ anyHash F b := fun e => h (hash_any_inj h0 hF a b e)

/-! ### order -/

/-- The comparison of texts, with the undefined behaviour. `m`: the result if one text is the beginning of the other, which does not happen. -/
private def scan (F : Fns) (m : Option PO) : List Sign → List Sign → Option PO
  | a :: l, b :: r =>
    match a, b with
    | .value _ _, .empty => none
    | a, b =>
      match a.cmp F b with
      | .equivalent => scan F m l r
      | c => some c
  | [], [] => some .equivalent
  | _, _ => m

/-- What is compared after a part of the texts. -/
private def andThen (c : Option PO) (k : Option PO) : Option PO :=
  match c with
  | some .equivalent => k
  | c => c

mutual
private theorem cmp_any (m : Option PO) (a b : Option Val) (l r : List Sign) : scan F m (text a ++ l) (text b ++ r) = andThen (anyCmp F a b) (scan F m l r) := by
  cases a with
  | none =>
    cases b with
    | none => simp [text, anyCmp, scan, Sign.cmp, andThen]
    | some w => cases w; simp [text, textVal, anyCmp, scan, Sign.cmp, andThen]
  | some v =>
    cases b with
    | none => cases v; simp [text, textVal, anyCmp, scan, andThen]
    | some w =>
      simp only [text, anyCmp]
      exact cmp_val m v w l r
private theorem cmp_val (m : Option PO) (a b : Val) (l r : List Sign) : scan F m (textVal a ++ l) (textVal b ++ r) = andThen (valCmp F a b) (scan F m l r) := by
  obtain ⟨t, x, xs⟩ := a
  obtain ⟨u, y, ys⟩ := b
  simp only [textVal, valCmp, List.cons_append, scan, Sign.cmp]
  rw [cmp_elems m xs ys l r]
  by_cases h : t = u
  · simp only [h, if_true, ne_eq, not_true_eq_false, if_false]
    cases F.cmp u x y <;> rfl
  · simp [h, andThen]
private theorem cmp_elems (m : Option PO) (xs ys : List (Option Val)) (l r : List Sign) :
    scan F m (textElems xs ++ l) (textElems ys ++ r) = andThen (elemsCmp F xs ys) (scan F m l r) := by
  cases xs with
  | nil =>
    cases ys with
    | nil => simp [textElems, elemsCmp, scan, Sign.cmp, andThen]
    | cons y ys =>
      match y with
      | none => simp [textElems, text, scan, Sign.cmp, andThen, elemsCmp]
      | some (.mk u y zs) => simp [textElems, text, textVal, scan, Sign.cmp, andThen, elemsCmp]
  | cons x xs =>
    cases ys with
    | nil =>
      match x with
      | none => simp [textElems, text, scan, Sign.cmp, andThen, elemsCmp]
      | some (.mk u y zs) => simp [textElems, text, textVal, scan, Sign.cmp, andThen, elemsCmp]
    | cons y ys =>
      simp only [textElems, List.append_assoc]
      rw [cmp_any m x y, cmp_elems m xs ys l r]
      simp only [elemsCmp]
      rcases anyCmp F x y with _ | c
      · rfl
      · cases c <;> rfl
end

private theorem anyCmp_scan (m : Option PO) (a b : Option Val) : anyCmp F a b = scan F m (text a) (text b) := by
  have := cmp_any (F := F) m a b [] []
  simp only [List.append_nil] at this
  rw [this]
  rcases anyCmp F a b with _ | c
  · rfl
  · cases c <;> rfl

private theorem scan_cons (m : Option PO) (a b : Sign) (l r : List Sign) (h : a.cmp F b = .equivalent) : scan F m (a :: l) (b :: r) = scan F m l r := by
  cases a <;> cases b <;> simp_all [scan, Sign.cmp]

/-- What the code does at the deciding place. -/
private def outcome (F : Fns) : Sign → Sign → Option PO
  | .value _ _, .empty => none
  | a, b => some (a.cmp F b)

private theorem outcome_cmp {a b : Sign} {o : PO} (h : outcome F a b = some o) : o = a.cmp F b := by
  cases a <;> cases b <;> simp_all [outcome]

private theorem scan_differ (m : Option PO) (a b : Sign) (l r : List Sign) (h : a.cmp F b ≠ .equivalent) : scan F m (a :: l) (b :: r) = outcome F a b := by
  cases a <;> cases b <;> simp_all [scan, Sign.cmp, outcome]

private theorem Decides.tail {a b c d : Sign} {l r : List Sign} {i : Nat} (h : Decides F (a :: l) (b :: r) (i + 1) c d) :
    a.cmp F b = .equivalent ∧ Decides F l r i c d := by
  obtain ⟨h1, h2, h3, h4⟩ := h
  obtain ⟨x, y, hx, hy, hxy⟩ := h4 0 (Nat.succ_pos i)
  simp at hx hy
  subst hx hy
  refine ⟨hxy, by simpa using h1, by simpa using h2, h3, fun j hj => ?_⟩
  obtain ⟨x, y, hx, hy, hxy⟩ := h4 (j + 1) (by omega)
  exact ⟨x, y, by simpa using hx, by simpa using hy, hxy⟩

private theorem Decides.cons {a b c d : Sign} {l r : List Sign} {i : Nat} (h : Decides F l r i c d) (e : a.cmp F b = .equivalent) :
    Decides F (a :: l) (b :: r) (i + 1) c d := by
  obtain ⟨h1, h2, h3, h4⟩ := h
  refine ⟨by simpa using h1, by simpa using h2, h3, fun j hj => ?_⟩
  cases j with
  | zero => exact ⟨a, b, rfl, rfl, e⟩
  | succ j =>
    obtain ⟨x, y, hx, hy, hxy⟩ := h4 j (by omega)
    exact ⟨x, y, by simpa using hx, by simpa using hy, hxy⟩

private theorem scan_decides (m : Option PO) {l r : List Sign} {i : Nat} {a b : Sign} (h : Decides F l r i a b) : scan F m l r = outcome F a b := by
  induction i generalizing l r with
  | zero =>
    obtain ⟨h1, h2, h3, _⟩ := h
    cases l with
    | nil => simp at h1
    | cons x l =>
      cases r with
      | nil => simp at h2
      | cons y r =>
        simp at h1 h2
        subst h1 h2
        exact scan_differ m _ _ _ _ h3
  | succ i ih =>
    cases l with
    | nil => simp [Decides] at h
    | cons x l =>
      cases r with
      | nil => simp [Decides] at h
      | cons y r =>
        obtain ⟨h1, h2⟩ := h.tail
        rw [scan_cons m _ _ _ _ h1, ih h2]

/-- All signs are equivalent. -/
private def Equiv (F : Fns) (l r : List Sign) : Prop :=
  l.length = r.length ∧ ∀ (i : Nat) a b, l[i]? = some a → r[i]? = some b → Sign.cmp F a b = .equivalent

private theorem Equiv.cons {a b : Sign} {l r : List Sign} (h : Equiv F l r) (e : a.cmp F b = .equivalent) : Equiv F (a :: l) (b :: r) := by
  refine ⟨by simp [h.1], fun i c d hc hd => ?_⟩
  cases i with
  | zero => simp at hc hd; subst hc hd; exact e
  | succ i => exact h.2 i c d (by simpa using hc) (by simpa using hd)

private theorem scan_equiv (m : Option PO) : ∀ {l r : List Sign}, Equiv F l r → scan F m l r = some .equivalent
  | [], [], _ => rfl
  | [], _ :: _, h => by have := h.1; simp at this
  | _ :: _, [], h => by have := h.1; simp at this
  | a :: l, b :: r, h => by
    rw [scan_cons m _ _ _ _ (h.2 0 a b rfl rfl)]
    exact scan_equiv m ⟨by have := h.1; simpa using this, fun i c d hc hd => h.2 (i + 1) c d (by simpa using hc) (by simpa using hd)⟩

private theorem scan_total : ∀ (l r : List Sign), (∀ m, scan F m l r = scan F none l r) → (∃ i a b, Decides F l r i a b) ∨ Equiv F l r
  | [], [], _ => .inr ⟨rfl, by simp⟩
  | [], _ :: _, h => by have := h (some .less); simp [scan] at this
  | _ :: _, [], h => by have := h (some .less); simp [scan] at this
  | a :: l, b :: r, h => by
    by_cases e : a.cmp F b = .equivalent
    · have := scan_total l r fun m => by
        have := h m
        rwa [scan_cons m _ _ _ _ e, scan_cons none _ _ _ _ e] at this
      rcases this with ⟨i, c, d, h⟩ | h
      · exact .inl ⟨i + 1, c, d, h.cons e⟩
      · exact .inr (h.cons e)
    · exact .inl ⟨0, a, b, rfl, rfl, e, by simp⟩

private theorem total (F : Fns) (a b : Option Val) : (∃ i s t, Decides F (text a) (text b) i s t) ∨ Equiv F (text a) (text b) :=
  scan_total _ _ fun m => by rw [← anyCmp_scan m, ← anyCmp_scan none]

private theorem of_decides {a b : Option Val} {i : Nat} {s t : Sign} (h : Decides F (text a) (text b) i s t) : anyCmp F a b = outcome F s t := by
  rw [anyCmp_scan none, scan_decides none h]

private theorem of_equiv {a b : Option Val} (h : Equiv F (text a) (text b)) : anyCmp F a b = some .equivalent := by
  rw [anyCmp_scan none, scan_equiv none h]

/-- The specification gives one result only. -/
theorem compares_unique {a b : Option Val} {o o' : PO} (h : Compares F (text a) (text b) o) (h' : Compares F (text a) (text b) o') : o = o' := by
  have key : ∀ {o}, Compares F (text a) (text b) o → (o = .equivalent ∧ anyCmp F a b = some .equivalent) ∨
      ∃ i s t, Decides F (text a) (text b) i s t ∧ o = s.cmp F t := by
    rintro o (⟨h1, h2⟩ | h)
    · exact .inl ⟨h1, of_equiv h2⟩
    · exact .inr h
  have first : ∀ {i j s t s' t'}, Decides F (text a) (text b) i s t → Decides F (text a) (text b) j s' t' → i = j := by
    intro i j s t s' t' h h'
    rcases Nat.lt_trichotomy i j with hl | hl | hl
    · obtain ⟨x, y, hx, hy, hxy⟩ := h'.2.2.2 i hl
      rw [h.1] at hx; rw [h.2.1] at hy; cases hx; cases hy
      exact absurd hxy h.2.2.1
    · exact hl
    · obtain ⟨x, y, hx, hy, hxy⟩ := h.2.2.2 j hl
      rw [h'.1] at hx; rw [h'.2.1] at hy; cases hx; cases hy
      exact absurd hxy h'.2.2.1
  have no : ∀ {i s t}, Decides F (text a) (text b) i s t → anyCmp F a b = some .equivalent → False := by
    intro i s t h e
    rw [of_decides h] at e
    exact h.2.2.1 (outcome_cmp e).symm
  rcases key h with ⟨h1, h2⟩ | ⟨i, s, t, h1, h2⟩ <;> rcases key h' with ⟨h1', h2'⟩ | ⟨j, s', t', h1', h2'⟩
  · rw [h1, h1']
  · exact absurd h2 fun h => no h1' h
  · exact absurd h2' fun h => no h1 h
  · have := first h1 h1'
    subst this
    have e1 := h1.1; have e2 := h1.2.1
    rw [h1'.1] at e1; rw [h1'.2.1] at e2
    cases e1; cases e2
    rw [h2, h2']

/-- C122 for `<=>`, if it is not a value on the left and an empty any on the right that decide: the result is that of the first signs that are not equivalent. -/
theorem C122_order_partial (a b : Option Val) (h : ¬ ∃ i t x, Decides F (text a) (text b) i (.value t x) .empty) :
    ∃ o, anyCmp F a b = some o ∧ anyCmpEq F a b = some (o == .equivalent) ∧ Compares F (text a) (text b) o := by
  rcases total F a b with ⟨i, s, t, hd⟩ | he
  · have : outcome F s t = some (s.cmp F t) := by
      cases s <;> cases t <;> first | rfl | exact absurd ⟨_, _, _, hd⟩ h
    have e := of_decides hd
    rw [this] at e
    exact ⟨_, e, by simp [anyCmpEq, e], .inr ⟨i, s, t, hd, rfl⟩⟩
  · have e := of_equiv he
    exact ⟨_, e, by simp [anyCmpEq, e], .inl ⟨rfl, he⟩⟩

/-- C122 fails otherwise, always and however deep that any is: the comparison is undefined. -/
theorem C122_order_fails (a b : Option Val) {i t x : Nat} (h : Decides F (text a) (text b) i (.value t x) .empty) :
    anyCmp F a b = none ∧ anyCmpEq F a b = none := by
  have e : anyCmp F a b = none := of_decides h
  exact ⟨e, by simp [anyCmpEq, e]⟩

/-- C122 for `<=>`, exactly. -/
theorem C122_order_exact (a b : Option Val) :
    (∃ o, anyCmp F a b = some o ∧ Compares F (text a) (text b) o) ↔ ¬ ∃ i t x, Decides F (text a) (text b) i (.value t x) .empty := by
  constructor
  · rintro ⟨o, ho, _⟩ ⟨i, t, x, h⟩
    rw [(C122_order_fails a b h).1] at ho
    cases ho
  · intro h
    obtain ⟨o, h1, _, h2⟩ := C122_order_partial a b h
    exact ⟨o, h1, h2⟩

/-- C122: in particular `<=>` is defined if no any on the right is empty. -/
theorem C122_order_no_empty (a b : Option Val) (h : Sign.empty ∉ text b) : ∃ o, anyCmp F a b = some o ∧ Compares F (text a) (text b) o := by
  obtain ⟨o, h1, _, h2⟩ := C122_order_partial (F := F) a b fun ⟨i, t, x, hd⟩ => h (List.mem_of_getElem? hd.2.1)
  exact ⟨o, h1, h2⟩

/-- C122: `==` and `<=>` agree on what is equal if those of the data of every type do. -/
theorem C122_order_equal (hF : ∀ t x y, F.eq t x y = true ↔ F.cmp t x y = .equivalent) (a b : Option Val) :
    anyEq F a b = true ↔ anyCmp F a b = some .equivalent := by
  have hs : ∀ s t : Sign, s.same F t ↔ s.cmp F t = .equivalent := by
    intro s t
    cases s <;> cases t <;> simp [Sign.same, Sign.cmp]
    rename_i t x u y
    by_cases e : t = u
    · subst e; simp [hF]
    · simp [e]
  rw [C122_equal]
  constructor
  · rintro ⟨h1, h2⟩
    exact of_equiv ⟨h1, fun i s t hs' ht => (hs s t).1 (h2 i s t hs' ht)⟩
  · intro h
    rcases total F a b with ⟨i, s, t, hd⟩ | he
    · rw [of_decides hd] at h
      exact absurd (outcome_cmp h).symm hd.2.2.1
    · exact ⟨he.1, fun i s t hs' ht => (hs s t).2 (he.2 i s t hs' ht)⟩

/-- C122: if both comparisons are defined, `b <=> a` is the opposite of `a <=> b`, if that holds for the data of every type. -/
theorem C122_order_reversed (hF : ∀ t x y, F.cmp t y x = rev (F.cmp t x y)) (a b : Option Val) {o o' : PO} (h : anyCmp F a b = some o)
    (h' : anyCmp F b a = some o') : o' = rev o := by
  have hs : ∀ s t : Sign, t.cmp F s = rev (s.cmp F t) := by
    intro s t
    cases s <;> cases t <;> simp only [Sign.cmp, rev]
    rename_i t x u y
    by_cases e : t = u
    · subst e; rw [if_pos rfl, if_pos rfl]; exact hF _ _ _
    · rw [if_neg e, if_neg (Ne.symm e)]
  rcases total F a b with ⟨i, s, t, hd⟩ | he
  · rw [of_decides hd] at h
    have hd' : Decides F (text b) (text a) i t s := by
      refine ⟨hd.2.1, hd.1, ?_, fun j hj => ?_⟩
      · have := hd.2.2.1
        rw [hs s t]
        generalize s.cmp F t = c at this
        cases c <;> simp [rev] at this ⊢
      · obtain ⟨c, d, hc, hd, e⟩ := hd.2.2.2 j hj
        exact ⟨d, c, hd, hc, by rw [hs c d, e]; rfl⟩
    rw [of_decides hd'] at h'
    rw [outcome_cmp h, outcome_cmp h', hs s t]
  · rw [of_equiv he] at h
    have : Equiv F (text b) (text a) := ⟨he.1.symm, fun i s t h1 h2 => by rw [hs t s, he.2 i t s h2 h1]; rfl⟩
    rw [of_equiv this] at h'
    cases h; cases h'; rfl

/-- The cases of `Sign.cmp` in which no data are compared. -/
private theorem sign_trans (s t u : Sign) {p q r : PO} (hF : ∀ t x y z, F.cmp t x y = p → F.cmp t y z = q → F.cmp t x z = r)
    (hs : s.cmp F t = p) (ht : t.cmp F u = q) (hp : p = .less ∨ p = .equivalent) (hq : q = .less ∨ q = .equivalent)
    (hr : r = if p = .less ∨ q = .less then .less else .equivalent) : s.cmp F u = r := by
  cases s with
  | value a x =>
    cases t with
    | value b y =>
      by_cases e : a = b
      · subst e
        simp only [Sign.cmp, if_true] at hs
        cases u with
        | value c z =>
          by_cases e : a = c
          · subst e
            simp only [Sign.cmp, if_true] at ht ⊢
            exact hF _ _ _ _ hs ht
          · simp only [Sign.cmp, if_neg e] at ht
            subst ht
            simp at hq
        | _ => simp only [Sign.cmp] at ht; subst ht; simp at hq
      · simp only [Sign.cmp, if_neg e] at hs
        subst hs
        simp at hp
    | _ => simp only [Sign.cmp] at hs; subst hs; simp at hp
  | empty =>
    cases t with
    | empty => simp only [Sign.cmp] at hs; subst hs; rw [ht, hr]; rcases hq with rfl | rfl <;> rfl
    | _ => simp only [Sign.cmp] at hs; subst hs; simp at hp
  | stop =>
    cases t with
    | stop => simp only [Sign.cmp] at hs; subst hs; rw [ht, hr]; rcases hq with rfl | rfl <;> rfl
    | _ =>
      cases u with
      | stop => simp only [Sign.cmp] at ht; subst ht; simp at hq
      | _ => simp only [Sign.cmp] at hs ⊢; subst hs; simp [hr]

/-- C122: `<` is transitive on anys with anys in their values, if the order of the data of every type is. -/
theorem C122_order_transitive (hll : ∀ t x y z, F.cmp t x y = .less → F.cmp t y z = .less → F.cmp t x z = .less)
    (hle : ∀ t x y z, F.cmp t x y = .less → F.cmp t y z = .equivalent → F.cmp t x z = .less)
    (hel : ∀ t x y z, F.cmp t x y = .equivalent → F.cmp t y z = .less → F.cmp t x z = .less)
    (hee : ∀ t x y z, F.cmp t x y = .equivalent → F.cmp t y z = .equivalent → F.cmp t x z = .equivalent)
    (a b c : Option Val) (h : anyCmp F a b = some .less) (h' : anyCmp F b c = some .less) : anyCmp F a c = some .less := by
  have dec : ∀ {a b : Option Val}, anyCmp F a b = some .less → ∃ i s t, Decides F (text a) (text b) i s t ∧ s.cmp F t = .less := by
    intro a b h
    rcases total F a b with ⟨i, s, t, hd⟩ | he
    · rw [of_decides hd] at h
      exact ⟨i, s, t, hd, (outcome_cmp h).symm⟩
    · rw [of_equiv he] at h
      cases h
  have sll := fun s t u h h' => sign_trans (F := F) s t u hll (p := .less) (q := .less) (r := .less) h h' (by decide) (by decide) (by decide)
  have sle := fun s t u h h' => sign_trans (F := F) s t u hle (p := .less) (q := .equivalent) (r := .less) h h' (by decide) (by decide) (by decide)
  have sel := fun s t u h h' => sign_trans (F := F) s t u hel (p := .equivalent) (q := .less) (r := .less) h h' (by decide) (by decide) (by decide)
  have see := fun s t u h h' =>
    sign_trans (F := F) s t u hee (p := .equivalent) (q := .equivalent) (r := .equivalent) h h' (by decide) (by decide) (by decide)
  have done : ∀ {i s t}, Decides F (text a) (text c) i s t → s.cmp F t = .less → anyCmp F a c = some .less := by
    intro i s t hd e
    rw [of_decides hd, ← e]
    cases s <;> cases t <;> first | rfl | cases e
  obtain ⟨i, s, t, hd, hlt⟩ := dec h
  obtain ⟨j, s', t', hd', hlt'⟩ := dec h'
  have below : ∀ k, k < i → k < j → ∃ p q, (text a)[k]? = some p ∧ (text c)[k]? = some q ∧ p.cmp F q = .equivalent := by
    intro k h1 h2
    obtain ⟨p, q, hp, hq, e⟩ := hd.2.2.2 k h1
    obtain ⟨q', r, hq', hr, e'⟩ := hd'.2.2.2 k h2
    rw [hq] at hq'
    cases hq'
    exact ⟨p, r, hp, hr, see _ _ _ e e'⟩
  rcases Nat.lt_trichotomy i j with hl | hl | hl
  · obtain ⟨q, r, hq, hr, e⟩ := hd'.2.2.2 i hl
    have := hd.2.1
    rw [hq] at this
    cases this
    have e := sle _ _ _ hlt e
    exact done ⟨hd.1, hr, by rw [e]; simp, fun k hk => below k hk (by omega)⟩ e
  · subst hl
    have := hd.2.1
    rw [hd'.1] at this
    cases this
    have e := sll _ _ _ hlt hlt'
    exact done ⟨hd.1, hd'.2.1, by rw [e]; simp, fun k hk => below k hk hk⟩ e
  · obtain ⟨p, q, hp, hq, e⟩ := hd.2.2.2 j hl
    have := hd'.1
    rw [hq] at this
    cases this
    have e := sel _ _ _ e hlt'
    exact done ⟨hp, hd'.2.1, by rw [e]; simp, fun k hk => below k (by omega) hk⟩ e

/-- C122: anys that are equivalent compare in the same way with every other one, if that is so for the data of every type. -/
theorem C122_order_congruent (hle : ∀ t x y z, F.cmp t x y = .less → F.cmp t y z = .equivalent → F.cmp t x z = .less)
    (hel : ∀ t x y z, F.cmp t x y = .equivalent → F.cmp t y z = .less → F.cmp t x z = .less)
    (hee : ∀ t x y z, F.cmp t x y = .equivalent → F.cmp t y z = .equivalent → F.cmp t x z = .equivalent) (a b c : Option Val) :
    (anyCmp F a b = some .less → anyCmp F b c = some .equivalent → anyCmp F a c = some .less) ∧
    (anyCmp F a b = some .equivalent → anyCmp F b c = some .less → anyCmp F a c = some .less) ∧
    (anyCmp F a b = some .equivalent → anyCmp F b c = some .equivalent → anyCmp F a c = some .equivalent) := by
  have dec : ∀ {a b : Option Val}, anyCmp F a b = some .less → ∃ i s t, Decides F (text a) (text b) i s t ∧ s.cmp F t = .less := by
    intro a b h
    rcases total F a b with ⟨i, s, t, hd⟩ | he
    · rw [of_decides hd] at h
      exact ⟨i, s, t, hd, (outcome_cmp h).symm⟩
    · rw [of_equiv he] at h
      cases h
  have equ : ∀ {a b : Option Val}, anyCmp F a b = some .equivalent → Equiv F (text a) (text b) := by
    intro a b h
    rcases total F a b with ⟨i, s, t, hd⟩ | he
    · rw [of_decides hd] at h
      exact absurd (outcome_cmp h).symm hd.2.2.1
    · exact he
  have at_ : ∀ {a b : Option Val}, Equiv F (text a) (text b) → ∀ {i : Nat},
      (∀ s, (text a)[i]? = some s → ∃ t, (text b)[i]? = some t ∧ s.cmp F t = .equivalent) ∧
      (∀ t, (text b)[i]? = some t → ∃ s, (text a)[i]? = some s ∧ s.cmp F t = .equivalent) := by
    intro a b he i
    constructor
    · intro s hs
      have hi : i < (text b).length := he.1 ▸ (List.getElem?_eq_some_iff.1 hs).1
      exact ⟨_, List.getElem?_eq_getElem hi, he.2 i _ _ hs (List.getElem?_eq_getElem hi)⟩
    · intro t ht
      have hi : i < (text a).length := he.1.symm ▸ (List.getElem?_eq_some_iff.1 ht).1
      exact ⟨_, List.getElem?_eq_getElem hi, he.2 i _ _ (List.getElem?_eq_getElem hi) ht⟩
  have sle := fun s t u h h' => sign_trans (F := F) s t u hle (p := .less) (q := .equivalent) (r := .less) h h' (by decide) (by decide) (by decide)
  have sel := fun s t u h h' => sign_trans (F := F) s t u hel (p := .equivalent) (q := .less) (r := .less) h h' (by decide) (by decide) (by decide)
  have see := fun s t u h h' =>
    sign_trans (F := F) s t u hee (p := .equivalent) (q := .equivalent) (r := .equivalent) h h' (by decide) (by decide) (by decide)
  have done : ∀ {i s t}, Decides F (text a) (text c) i s t → s.cmp F t = .less → anyCmp F a c = some .less := by
    intro i s t hd e
    rw [of_decides hd, ← e]
    cases s <;> cases t <;> first | rfl | cases e
  refine ⟨fun h h' => ?_, fun h h' => ?_, fun h h' => ?_⟩
  · obtain ⟨i, s, t, hd, hlt⟩ := dec h
    have he := equ h'
    obtain ⟨u, hu, e⟩ := (at_ he).1 t hd.2.1
    have e := sle _ _ _ hlt e
    refine done ⟨hd.1, hu, by rw [e]; simp, fun k hk => ?_⟩ e
    obtain ⟨p, q, hp, hq, e1⟩ := hd.2.2.2 k hk
    obtain ⟨r, hr, e2⟩ := (at_ he).1 q hq
    exact ⟨p, r, hp, hr, see _ _ _ e1 e2⟩
  · obtain ⟨i, s, t, hd, hlt⟩ := dec h'
    have he := equ h
    obtain ⟨u, hu, e⟩ := (at_ he).2 s hd.1
    have e := sel _ _ _ e hlt
    refine done ⟨hu, hd.2.1, by rw [e]; simp, fun k hk => ?_⟩ e
    obtain ⟨p, q, hp, hq, e1⟩ := hd.2.2.2 k hk
    obtain ⟨r, hr, e2⟩ := (at_ he).2 p hp
    exact ⟨r, q, hr, hq, see _ _ _ e2 e1⟩
  · have h1 := equ h
    have h2 := equ h'
    refine of_equiv ⟨h1.1.trans h2.1, fun i s u hs hu => ?_⟩
    obtain ⟨t, ht, e⟩ := (at_ h1).1 s hs
    exact see _ _ _ e (h2.2 i t u ht hu)

/-! ### copies -/

/-- C122: after a copy assignment that is defined the target is equal to what the source held and has the same hash, however much is in it. -/
theorem C122_copy (hF : ∀ t x, F.eq t x x = true) (cfg : Cfg) (unequal : Bool) {w w' : World} {l s : Loc} {c : Option Val} (hs : w.get s = some c)
    (h : copyAssign cfg unequal w l s = some w') :
    ∃ c', w'.get l = some c' ∧ anyEq F c' c = true ∧ anyHash F c' = anyHash F c := by
  have key : ∀ {w w' : World}, moveAssignLocal w l c = some w' → w'.get l = some c := by
    intro w w' h
    simp only [moveAssignLocal, destroyValue] at h
    cases hl : w.get l with
    | none => simp [hl] at h
    | some d =>
      simp only [hl, Option.pure_def, Option.bind_eq_bind, Option.bind_some, Option.some.injEq] at h
      rw [← h, set_set_self]
      exact get_set_self (by simp [hl])
  have : w'.get l = some c := by
    simp only [copyAssign, hs, Option.bind_eq_bind, Option.bind_some] at h
    split at h
    · cases h1 : destroyValue w l with
      | none => simp [h1] at h
      | some w1 =>
        simp only [h1, Option.bind_some] at h
        cases h2 : w1.get s with
        | none => simp [h2] at h
        | some _ =>
          simp only [h2, Option.bind_some] at h
          exact key h
    · exact key h
  exact ⟨c, this, by rw [anyEq_scan]; exact scanEq_refl hF _, rfl⟩

/-! ### the hypotheses are met -/

/-- Numbers as data. -/
def exFns : Fns where
  eq := fun _ x y => x == y
  cmp := fun _ x y => if x < y then .less else if y < x then .greater else .equivalent
  hash := fun t x hs => hs.foldl (fun a h => 31 * a + h) (7 * t + x)

/-- A node with a node and an empty any in it; `d` is the data of the innermost. -/
def exTree (d : Nat) (last : Option Val) : Option Val := some (.mk 1 10 [some (.mk 1 20 [some (.mk 2 d [])]), last])

example : anyEq exFns (exTree 5 none) (exTree 5 none) = true ∧ anyEq exFns (exTree 5 none) (exTree 6 none) = false ∧
    anyEq exFns (exTree 5 none) (exTree 5 (exTree 5 none)) = false := by decide +kernel
example : text (exTree 5 none) = [.value 1 10, .value 1 20, .value 2 5, .stop, .stop, .empty, .stop] := by decide +kernel
example : (∀ t x y, exFns.eq t x y = true ↔ x = y) ∧ (∀ t x y h, exFns.eq t x y = true → exFns.hash t x h = exFns.hash t y h) :=
  ⟨fun t x y => by simp [exFns], fun t x y h e => by simp [exFns] at e; rw [e]⟩
example : (∀ t x y, exFns.eq t x y = true ↔ exFns.cmp t x y = .equivalent) ∧ (∀ t x y, exFns.cmp t y x = rev (exFns.cmp t x y)) := by
  constructor
  · intro t x y
    simp only [exFns]
    split
    · simp; omega
    · split <;> simp <;> omega
  · intro t x y
    simp only [exFns]
    rcases Nat.lt_trichotomy x y with h | h | h
    · rw [if_neg (by omega), if_pos h, if_pos h]; rfl
    · subst h; simp [rev]
    · rw [if_pos h, if_neg (by omega), if_pos h]; rfl
/-- A pair of numbers as one number. -/
private def pair (a b : Nat) : Nat := 2 ^ a * (2 * b + 1)

private theorem pair_inj {a b c d : Nat} (h : pair a b = pair c d) : a = c ∧ b = d := by
  unfold pair at h
  induction a generalizing c with
  | zero =>
    cases c with
    | zero => exact ⟨rfl, by omega⟩
    | succ c => rw [Nat.pow_succ, Nat.mul_comm (2 ^ c) 2, Nat.mul_assoc] at h; omega
  | succ a ih =>
    cases c with
    | zero => rw [Nat.pow_succ, Nat.mul_comm (2 ^ a) 2, Nat.mul_assoc] at h; omega
    | succ c =>
      rw [Nat.pow_succ, Nat.pow_succ, Nat.mul_comm (2 ^ a) 2, Nat.mul_comm (2 ^ c) 2, Nat.mul_assoc, Nat.mul_assoc] at h
      obtain ⟨h1, h2⟩ := ih (Nat.eq_of_mul_eq_mul_left (by decide) h)
      exact ⟨by rw [h1], h2⟩

private theorem pair_pos (a b : Nat) : pair a b ≠ 0 := Nat.mul_ne_zero (by have := Nat.two_pow_pos a; omega) (by omega)

private theorem list_inj : ∀ l r : List Nat, l.foldr pair 0 = r.foldr pair 0 → l = r
  | [], [], _ => rfl
  | [], a :: r, h => absurd h.symm (pair_pos a _)
  | a :: l, [], h => absurd h (pair_pos a _)
  | a :: l, b :: r, h => by
    obtain ⟨h1, h2⟩ := pair_inj h
    rw [h1, list_inj l r h2]

/-- Hash functions without collisions exist (for numbers without bound). -/
example : ∃ F : Fns, (∀ t x hs, F.hash t x hs ≠ 0) ∧ ∀ t x hs u y hs', F.hash t x hs = F.hash u y hs' → t = u ∧ x = y ∧ hs = hs' :=
  ⟨{ exFns with hash := fun t x hs => pair t (pair x (hs.foldr pair 0)) }, fun _ _ _ => pair_pos _ _, fun t x hs u y hs' h => by
    obtain ⟨h1, h2⟩ := pair_inj h
    obtain ⟨h2, h3⟩ := pair_inj h2
    exact ⟨h1, h2, list_inj _ _ h3⟩⟩
example : anyCmp exFns (exTree 5 none) (exTree 6 none) = some .less ∧ anyCmp exFns (exTree 6 none) (exTree 7 (exTree 1 none)) = some .less ∧
    anyCmp exFns (exTree 5 none) (exTree 7 (exTree 1 none)) = some .less := by decide +kernel
example : ∀ t x y z, (exFns.cmp t x y = .less → exFns.cmp t y z = .less → exFns.cmp t x z = .less) ∧
    (exFns.cmp t x y = .less → exFns.cmp t y z = .equivalent → exFns.cmp t x z = .less) ∧
    (exFns.cmp t x y = .equivalent → exFns.cmp t y z = .less → exFns.cmp t x z = .less) ∧
    (exFns.cmp t x y = .equivalent → exFns.cmp t y z = .equivalent → exFns.cmp t x z = .equivalent) := by
  have l : ∀ t x y, exFns.cmp t x y = .less ↔ x < y := by
    intro t x y; simp only [exFns]; split
    · simp [*]
    · split <;> simp [*]
  have e : ∀ t x y, exFns.cmp t x y = .equivalent ↔ x = y := by
    intro t x y; simp only [exFns]; split
    · simp; omega
    · split <;> simp <;> omega
  intro t x y z
  simp only [l, e]
  refine ⟨?_, ?_, ?_, ?_⟩ <;> omega
/-- Undefined one way, `unordered` the other way. -/
example : Decides exFns (text (exTree 5 (exTree 1 none))) (text (exTree 5 none)) 5 (.value 1 10) .empty ∧
    anyCmp exFns (exTree 5 (exTree 1 none)) (exTree 5 none) = none ∧
    anyCmp exFns (exTree 5 none) (exTree 5 (exTree 1 none)) = some .unordered := by
  refine ⟨⟨by decide +kernel, by decide +kernel, by decide +kernel, fun j hj => ?_⟩, by decide +kernel, by decide +kernel⟩
  have : j = 0 ∨ j = 1 ∨ j = 2 ∨ j = 3 ∨ j = 4 := by omega
  rcases this with rfl | rfl | rfl | rfl | rfl <;> exact ⟨_, _, rfl, rfl, by decide +kernel⟩
example : Sign.empty ∉ text (exTree 5 (some (.mk 2 1 []))) := by decide +kernel
example : ∃ w', copyAssign ⟨true, false, false⟩ false exWorld ⟨0, []⟩ ⟨0, [0, 0]⟩ = some w' := ⟨_, rfl⟩

end AnyAny.Nested
