import Verif.Lemmas.Poly3
import Verif.Spec.PolyRun
/-
C31, C34-C38, C62 and part of C22: polymorphic references and pointers.

`Reach cfg w S` (Spec/PolyHist.lean): a client program with any objects, variables and references can
reach the state `w`, and `S` says for every reference variable what it is: its class, its methods and the
object it refers to (`target`: dynamic type and address). `S` follows from the statements executed by
simple rules that know nothing about vtables; the theorems say that the library behaves accordingly.
Results of read-only operations are stated as `Returns`: the value is returned and nothing changes.
-/
namespace AnyAny.Poly
open AnyAny.TypeList
open AnyAny.Mem (Method Cfg CfgOk Ptr VtPtr World AnySt Obj upd content addrOf snap exCfg exCfg_ok exMs)

variable {cfg : Cfg}

/-- Calling `m` in state `w` returns `a` and changes no object, variable or reference. -/
def Returns {α} (w : PW) (m : PM α) (a : α) : Prop :=
  ∃ w', m w = .ok a w' ∧ w'.mem = w.mem ∧ w'.vars = w.vars ∧ w'.refs = w.refs

/-- Calling `m` throws and changes no object, variable or reference. -/
def Throws {α} (w : PW) (m : PM α) : Prop :=
  ∃ w', m w = .exn w' ∧ w'.mem = w.mem ∧ w'.vars = w.vars ∧ w'.refs = w.refs

theorem Ev.returns {α} {w : PW} {m : PM α} {a : α} (h : Ev w m a) : Returns w m a := by
  obtain ⟨k, _, h⟩ := h; exact ⟨_, h, rfl, rfl, rfl⟩

theorem Ex.throws {α} {w : PW} {m : PM α} (h : Ex w m) : Throws w m := by
  obtain ⟨k, _, h⟩ := h; exact ⟨_, h, rfl, rfl, rfl⟩

/-! ### C31 -/

/-- Every legal statement of a program with references is free of undefined behaviour; the program ends
prematurely only where an operation on any objects does (see C15). -/
theorem C31_no_undefined_behaviour (C : CfgOk cfg) {w : PW} {S : SRefs} (h : Reach cfg w S) {op : Op} (L : Legal cfg w S op) :
    (∃ w', exec cfg op w = .ok () w' ∧ Reach cfg w' (specStep w S op)) ∨
    (∃ w', exec cfg op w = .exn w' ∧ Reach cfg w' S) ∨
    (exec cfg op w = .term ∧ ∃ mop, op = .mem mop ∧ Mem.mayTerminate cfg w.mem mop) := by
  rcases step C (h.inv C) L with ⟨w', h', _⟩ | ⟨w', h', _⟩ | h'
  · exact Or.inl ⟨w', h', h.ok L h'⟩
  · exact Or.inr (Or.inl ⟨w', h', h.exn L h'⟩)
  · exact Or.inr (Or.inr h')

/-- C31: a call of a method through a reference arrives at the implementation for the dynamic type of the
object referred to, with its address. -/
theorem C31_dispatch (C : CfgOk cfg) {w : PW} {S : SRefs} (h : Reach cfg w S) {n T : Nat} {s : SRef} {a : Addr} {m : Method}
    (hs : S n = some s) (ht : s.target = some (T, a)) (hm : m ∈ s.ms) : Returns w (dispatch (.var n) m) (T, some a) := by
  have I := h.inv C
  obtain ⟨o, hr, A⟩ := I.get hs
  have hd : Den w o T a s.lender := by have := A.means; rw [ht] at this; exact this
  exact (dispatch_ev I.fresh hr hd (by rw [A.ms]; exact hm)).returns

/-- A chain of conversions: the first from variable `src`, all results in variable `dst`. -/
def chain (dst src : Nat) : List (Kind × List Method) → List Op
  | [] => []
  | (k, ms) :: cs => .conv dst k ms src :: chain dst dst cs

/-- What a conversion makes of a reference: only the class changes. -/
def SRef.to (s : SRef) (c : Kind × List Method) : SRef :=
  ⟨c.1, c.2, s.target, if c.1.isStateful then none else s.lender⟩

/-- Every conversion of the chain exists. -/
def ConvertsAll (s : SRef) : List (Kind × List Method) → Prop
  | [] => True
  | c :: cs => Converts c.1 c.2 s ∧ ConvertsAll (s.to c) cs

/-- Execute statements in order, stopping at the first that does not return. -/
def execAll (cfg : Cfg) : List Op → PM Unit
  | [] => pure ()
  | op :: ops => do exec cfg op; execAll cfg ops

theorem foldl_to_target (cs : List (Kind × List Method)) (s : SRef) : (cs.foldl SRef.to s).target = s.target := by
  induction cs generalizing s with
  | nil => rfl
  | cons c cs ih => exact ih _

theorem foldl_to_ms (cs : List (Kind × List Method)) (s : SRef) (hc : cs ≠ []) :
    (cs.foldl SRef.to s).ms = (cs.getLast hc).2 := by
  induction cs generalizing s with
  | nil => exact absurd rfl hc
  | cons c cs ih =>
    cases cs with
    | nil => rfl
    | cons d ds => simpa using ih (s.to c) (by simp)

theorem foldl_to_lender (cs : List (Kind × List Method)) (s : SRef) :
    (cs.foldl SRef.to s).lender = none ∨ (cs.foldl SRef.to s).lender = s.lender := by
  induction cs generalizing s with
  | nil => exact Or.inr rfl
  | cons c cs ih =>
    rcases ih (s.to c) with h | h
    · exact Or.inl h
    · rw [List.foldl_cons, h]
      show (if c.1.isStateful then none else s.lender) = none ∨ (if c.1.isStateful then none else s.lender) = s.lender
      split
      · exact Or.inl rfl
      · exact Or.inr rfl

/-- Conversions only drop methods. -/
theorem converts_sub {k : Kind} {ms : List Method} {s : SRef} (h : Converts k ms s) : ∀ m ∈ ms, m ∈ s.ms := by
  intro m hm
  unfold Converts at h
  split at h
  all_goals first
    | exact h.subset hm
    | exact h m hm
    | exact absurd h id

theorem convertsAll_sub {cs : List (Kind × List Method)} {s : SRef} (h : ConvertsAll s cs) :
    ∀ m ∈ (cs.foldl SRef.to s).ms, m ∈ s.ms := by
  induction cs generalizing s with
  | nil => exact fun m hm => hm
  | cons c cs ih => exact fun m hm => converts_sub h.1 m (ih h.2 m hm)

/-- One conversion, executed. -/
theorem conv_exec (C : CfgOk cfg) {w : PW} {S : SRefs} {src dst : Nat} {s : SRef} {c : Kind × List Method} (h : Reach cfg w S)
    (hs : S src = some s) (hn : NotLent S dst) (hc : Converts c.1 c.2 s) :
    ∃ w', exec cfg (.conv dst c.1 c.2 src) w = .ok () w' ∧ Reach cfg w' (upd S dst (some (s.to c))) ∧
      w'.mem = w.mem ∧ w'.vars = w.vars := by
  have L : Legal cfg w S (.conv dst c.1 c.2 src) := ⟨hn, s, hs, hc⟩
  have I := h.inv C
  obtain ⟨o, hr, A⟩ := I.get hs
  have hl : (if c.1.isStateful = true then none else s.lender) ≠ some dst := by
    split
    · simp
    · exact hn _ _ hs
  obtain ⟨w1, e1, m1, v1⟩ : ∃ w1, exec cfg (.conv dst c.1 c.2 src) w = .ok () w1 ∧ w1.mem = w.mem ∧ w1.vars = w.vars := by
    cases ht : s.target with
    | none =>
      have hd : IsNull o := by have := A.means; rw [ht] at this; exact this
      obtain ⟨w1, e1, _, h2⟩ := bindVar_null I hn (convert_null I.fresh hr hd A.kind hc) hl
      exact ⟨w1, e1, h2⟩
    | some p =>
      have hd : Den w o p.1 p.2 s.lender := by have := A.means; rw [ht] at this; exact this
      obtain ⟨w1, e1, _, h2⟩ := bindVar_gives I hn (convert_gives I.fresh hr hd A.kind A.ms hc) hl
      exact ⟨w1, e1, h2⟩
  have h1 := h.ok L e1
  simp only [specStep, hs, Option.map_some] at h1
  exact ⟨w1, e1, h1, m1, v1⟩

theorem chain_exec (C : CfgOk cfg) (cs : List (Kind × List Method)) : ∀ {w : PW} {S : SRefs} {src dst : Nat} {s : SRef} {c : Kind × List Method},
    Reach cfg w S → S src = some s → NotLent S dst → ConvertsAll s (c :: cs) →
    ∃ w', execAll cfg (chain dst src (c :: cs)) w = .ok () w' ∧ Reach cfg w' (upd S dst (some ((c :: cs).foldl SRef.to s))) ∧
      w'.mem = w.mem ∧ w'.vars = w.vars := by
  induction cs with
  | nil =>
    intro w S src dst s c h hs hn hc
    obtain ⟨w1, e1, h1, h2⟩ := conv_exec C h hs hn hc.1
    exact ⟨w1, by simp only [chain, execAll, pbind_apply, e1, ppure_apply], h1, h2⟩
  | cons d ds ih =>
    intro w S src dst s c h hs hn hc
    obtain ⟨w1, e1, h1, m1, v1⟩ := conv_exec C h hs hn hc.1
    have hn1 : NotLent (upd S dst (some (s.to c))) dst := by
      intro n t ht
      simp only [upd] at ht
      split at ht
      · cases ht
        rcases foldl_to_lender [c] s with h | h
        · rw [show s.to c = [c].foldl SRef.to s from rfl, h]; simp
        · rw [show s.to c = [c].foldl SRef.to s from rfl, h]; exact hn _ _ hs
      · exact hn n t ht
    obtain ⟨w2, e2, h2, m2, v2⟩ := ih (src := dst) (dst := dst) (s := s.to c) (c := d) h1 (by simp [upd]) hn1 hc.2
    have hu : upd (upd S dst (some (s.to c))) dst (some ((d :: ds).foldl SRef.to (s.to c))) =
        upd S dst (some ((c :: d :: ds).foldl SRef.to s)) := by
      funext n; simp only [upd]; split <;> rfl
    rw [hu] at h2
    refine ⟨w2, ?_, h2, m2.trans m1, v2.trans v1⟩
    rw [chain, execAll, pbind_apply, e1]; exact e2

/-- C31: through any chain of conversions (poly_ref, const_poly_ref, poly_ptr, const_poly_ptr,
stateful::ref, stateful::cref in any order the classes allow), a method of the final interface reaches
the same implementation for the same object as it does through the original reference. -/
theorem C31_chain (C : CfgOk cfg) {w : PW} {S : SRefs} (h : Reach cfg w S) {src dst : Nat} {s : SRef} {c : Kind × List Method}
    {cs : List (Kind × List Method)} {T : Nat} {a : Addr} {m : Method} (hs : S src = some s) (ht : s.target = some (T, a))
    (hn : NotLent S dst) (hc : ConvertsAll s (c :: cs)) (hm : m ∈ ((c :: cs).getLast (by simp)).2) :
    Returns w (dispatch (.var src) m) (T, some a) ∧
    ∃ w', execAll cfg (chain dst src (c :: cs)) w = .ok () w' ∧ w'.mem = w.mem ∧ w'.vars = w.vars ∧
      Returns w' (dispatch (.var dst) m) (T, some a) := by
  have hm' : m ∈ ((c :: cs).foldl SRef.to s).ms := by rw [foldl_to_ms _ _ (by simp)]; exact hm
  obtain ⟨w', e, h', m1, v1⟩ := chain_exec C cs h hs hn hc
  refine ⟨C31_dispatch C h hs ht (convertsAll_sub hc m hm'), w', e, m1, v1, ?_⟩
  exact C31_dispatch C h' (by simp [upd]) (by rw [foldl_to_target]; exact ht) hm'

/-- A program with several references: `0` points to the value of an any (heap, type 2), `1` is the
reference behind it, `2` a stateful reference with reordered methods, `3` a view of it, `4` refers to a
variable. -/
def exProg : List Op :=
  [.mem (.valueCtor 0 exMs 1 2 (.lit 7) false),
   .ofAny 0 .polyPtr [.typeInfo, .user 0, .user 1] (some 0),
   .deref 1 0,
   .conv 2 .ref [.user 1, .user 0] 1,
   .view 3 2,
   .newVar 5 1 9,
   .ofVar 4 .polyRef [.typeInfo, .user 0, .user 1] 5,
   .invoke 2 1 4,
   .drop 0]

example : ∃ w S, Reach exCfg w S ∧
    (decide ((S 2).map (·.target) = some (some (2, .mem (.blk 0)))) && decide ((S 3).map (·.lender) = some (some 2)) &&
      decide (Mem.view w.mem 0 = some (2, 74))) = true :=
  run_witness 6 (ops := exProg) (by decide +kernel)

/-- A chain through four classes. -/
example : ConvertsAll ⟨.polyRef, [.typeInfo, .user 0, .user 1], some (2, .mem (.blk 0)), none⟩
    [(.constPolyRef, [.user 0, .user 1]), (.cref, [.user 1, .user 0]), (.cref, [.user 0, .user 0])] := by
  refine ⟨⟨[.typeInfo], [], rfl⟩, ?_, ?_, trivial⟩
  · intro m hm; simp at hm; rcases hm with rfl | rfl <;> simp [SRef.to]
  · intro m hm; simp at hm; rcases hm with rfl | rfl <;> simp [SRef.to]

/-! ### C34 -/

/-- C34: a stateful reference made from a reference whose methods include all of its methods, in any order
and with repetitions, reaches the same implementation for the same object; and it depends on nothing but
itself: `w''` is any state in which this one reference object still exists, whatever happened to the source
and to all other references. -/
theorem C34_stateful (C : CfgOk cfg) {w : PW} {S : SRefs} (h : Reach cfg w S) {src dst T : Nat} {s : SRef} {a : Addr} {k : Kind}
    {ms : List Method} (hs : S src = some s) (ht : s.target = some (T, a)) (hn : NotLent S dst) (hk : k.isStateful = true)
    (hc : Converts k ms s) :
    ∃ w', exec cfg (.conv dst k ms src) w = .ok () w' ∧ w'.mem = w.mem ∧ w'.vars = w.vars ∧
      ∀ w'', w''.refs (.var dst) = w'.refs (.var dst) → ∀ m ∈ ms,
        Returns w (dispatch (.var src) m) (T, some a) ∧ Returns w'' (dispatch (.var dst) m) (T, some a) := by
  obtain ⟨w', e, h', m1, v1⟩ := conv_exec (c := (k, ms)) C h hs hn hc
  refine ⟨w', e, m1, v1, fun w'' hw m hm => ⟨C31_dispatch C h hs ht (converts_sub hc m hm), ?_⟩⟩
  obtain ⟨o, hr, A⟩ := (h'.inv C).get (n := dst) (s := s.to (k, ms)) (by simp [upd])
  have hd : Den w' o T a (s.to (k, ms)).lender := by
    have := A.means
    rw [show (s.to (k, ms)).target = some (T, a) from ht] at this
    exact this
  have hkk : o.kind.isStateful = true := by rw [A.kind]; exact hk
  have hd' : Den w'' o T a none := ⟨hd.val, hd.byVal, by simp [viewVal, hkk]⟩
  have hr'' : w''.refs (.var dst) = some o := by rw [hw]; exact hr
  have : Ev w'' (dispatch (.var dst) m) (T, some a) := by
    refine Ev.bind (getRef_ev hr'') fun j _ => ?_
    rw [if_pos hkk]
    exact dispatchAt_ev (w := { w'' with tmps := j }) hr'' (hd'.le j) (by rw [A.ms]; exact hm)
  exact this.returns

/-- Which conversions to stateful references exist: from every poly reference and every stateful
reference of at least the same methods, not adding mutability. -/
theorem C34_available {k : Kind} {ms : List Method} {s : SRef} (hk : k.isStateful = true) :
    Converts k ms s ↔ s.kind.isPtr = false ∧ (k.isConst = false → s.kind.isConst = false) ∧ ∀ m ∈ ms, m ∈ s.ms := by
  unfold Converts
  cases k <;> cases hk <;> cases s.kind <;> simp [Kind.isPtr, Kind.isConst]

/-- After the source is gone. -/
example : ∃ w S, Reach exCfg w S ∧
    (decide (S 1 = none) && decide ((S 2).map (·.target) = some (some (2, .mem (.blk 0)))) &&
      decide (Mem.view w.mem 0 = some (2, 744))) = true :=
  run_witness 6 (ops := exProg ++ [.drop 1, .invoke 2 1 4]) (by decide +kernel)

/-! ### C35 -/

/-- C35: what a pointer says about itself. Null pointers have no value, a null address and the
descriptor of `void` (`none`); the others have value, address and dynamic type of their target. -/
theorem C35_pointer (C : CfgOk cfg) {w : PW} {S : SRefs} (h : Reach cfg w S) {n : Nat} {s : SRef} (hs : S n = some s) :
    Returns w (hasValue (.var n)) s.target.isSome ∧ Returns w (raw (.var n)) (s.target.map (·.2)) ∧
    (s.target = none ∨ Mem.HasDesc s.ms → Returns w (typeDescriptor (.var n)) (s.target.map (·.1))) := by
  have I := h.inv C
  obtain ⟨o, hr, A⟩ := I.get hs
  have hraw : Ev w (raw (.var n)) (s.target.map (·.2)) := by
    refine Ev.bind (getRef_ev hr) fun j _ => ?_
    rw [A.means.val]; exact Ev.pure _ _
  refine ⟨(Ev.bind hraw fun j _ => ?_).returns, hraw.returns, fun hti => ?_⟩
  · have : (s.target.map (·.2)).isSome = s.target.isSome := by cases s.target <;> rfl
    rw [this]; exact Ev.pure _ _
  · have hm := A.means
    cases ht : s.target with
    | none => rw [ht] at hm; exact (typeDescriptor_null hr hm).returns
    | some p =>
      rw [ht] at hm hti
      exact (typeDescriptor_ev I.fresh hr hm (by rw [A.ms]; simpa using hti)).returns

/-- C35: pointers built from `nullptr`, from a null `T*`, from a null `Any*` and from a pointer to an empty
any are null; a pointer to an any with a value has the address and dynamic type of that value. -/
theorem C35_construction (C : CfgOk cfg) {w : PW} {S : SRefs} (h : Reach cfg w S) {n : Nat} {k : Kind} {ms : List Method}
    (hk : k.isPtr = true) (hn : NotLent S n) {op : Op}
    (hop : op = .ofNull n k ms ∨ (∃ t, op = .ofNullT n k ms t) ∨ op = .ofAny n k ms none ∨
      ∃ c s, op = .ofAny n k ms (some c) ∧ snap w.mem c = some s ∧ ms <:+: s.ms) :
    ∃ w' s, exec cfg op w = .ok () w' ∧ Reach cfg w' (upd S n (some s)) ∧ s.kind = k ∧ s.ms = ms ∧
      s.target = (match op with
        | .ofAny _ _ _ (some c) => (content w.mem c).bind fun o => (addrOf w.mem c).map fun p => (o.ty, .mem p)
        | _ => none) := by
  have L : Legal cfg w S op := by
    rcases hop with rfl | ⟨t, rfl⟩ | rfl | ⟨c, s, rfl, h1, h2⟩
    · exact ⟨hn, hk⟩
    · exact ⟨hn, hk⟩
    · exact ⟨hn, hk, fun _ h => by cases h⟩
    · exact ⟨hn, hk, fun _ h => by cases h; exact ⟨s, h1, h2⟩⟩
  rcases step C (h.inv C) L with ⟨w', he, _⟩ | ⟨w', he, _⟩ | ⟨he, mop, hmop, _⟩
  · have := h.ok L he
    rcases hop with rfl | ⟨t, rfl⟩ | rfl | ⟨c, s, rfl, h1, h2⟩
    · exact ⟨w', _, he, this, rfl, rfl, rfl⟩
    · exact ⟨w', _, he, this, rfl, rfl, rfl⟩
    · exact ⟨w', _, he, this, rfl, rfl, rfl⟩
    · exact ⟨w', _, he, this, rfl, rfl, rfl⟩
  · exfalso
    have I := h.inv C
    rcases hop with rfl | ⟨t, rfl⟩ | rfl | ⟨c, s, rfl, h1, h2⟩
    · obtain ⟨_, h1, _⟩ := bindVar_null (l := none) I hn (ptrNull_gives (ms := ms) hk) (by simp); rw [exec, h1] at he; cases he
    · obtain ⟨_, h1, _⟩ := bindVar_null (l := none) I hn (ptrOfNullT_gives (ms := ms) hk t) (by simp); rw [exec, h1] at he; cases he
    · obtain ⟨_, h1, _⟩ := bindVar_null (l := none) I hn (ptrNull_gives (ms := ms) hk) (by simp); rw [exec, ptrOfAny, h1] at he; cases he
    · cases ho : s.obj with
      | none => obtain ⟨_, h1, _⟩ := bindVar_null (l := none) I hn (ptrOfAny_null (ms := ms) I.wf h1 ho hk) (by simp); rw [exec, h1] at he; cases he
      | some ob =>
        obtain ⟨p, _, _, h3⟩ := ptrOfAny_gives I.wf h1 ho hk h2
        obtain ⟨_, h1, _⟩ := bindVar_gives I hn h3 (by simp); rw [exec, h1] at he; cases he
  · rcases hop with rfl | ⟨t, rfl⟩ | rfl | ⟨c, s, rfl, h1, h2⟩ <;> cases hmop

/-- C35: every conversion between pointer classes (and `const_pointer_cast`) keeps nullness, address and
dynamic type. -/
theorem C35_conversion (C : CfgOk cfg) {w : PW} {S : SRefs} (h : Reach cfg w S) {src dst : Nat} {s : SRef} {c : Kind × List Method}
    {cs : List (Kind × List Method)} (hs : S src = some s) (hn : NotLent S dst) (hc : ConvertsAll s (c :: cs)) :
    ∃ w' s', execAll cfg (chain dst src (c :: cs)) w = .ok () w' ∧ Reach cfg w' (upd S dst (some s')) ∧ s'.target = s.target := by
  obtain ⟨w', e, h', _⟩ := chain_exec C cs h hs hn hc
  exact ⟨w', _, e, h', foldl_to_target _ _⟩

theorem C35_const_pointer_cast (C : CfgOk cfg) {w : PW} {S : SRefs} (h : Reach cfg w S) {src dst : Nat} {s : SRef}
    (hs : S src = some s) (hk : s.kind = .constPolyPtr) (hn : NotLent S dst) :
    ∃ w', exec cfg (.constCast dst src) w = .ok () w' ∧
      Reach cfg w' (upd S dst (some ⟨.polyPtr, s.ms, s.target, s.lender⟩)) := by
  have L : Legal cfg w S (.constCast dst src) := ⟨hn, s, hs, hk⟩
  have I := h.inv C
  obtain ⟨o, hr, A⟩ := I.get hs
  obtain ⟨w1, e1⟩ : ∃ w1, exec cfg (.constCast dst src) w = .ok () w1 := by
    have hm := A.means
    cases ht : s.target with
    | none =>
      rw [ht] at hm
      obtain ⟨w1, e1, _⟩ := bindVar_null I hn (constPointerCast_null I.fresh hr hm) (hn _ _ hs)
      exact ⟨w1, e1⟩
    | some p =>
      rw [ht] at hm
      obtain ⟨w1, e1, _⟩ := bindVar_gives I hn (constPointerCast_gives I.fresh hr hm (by rw [A.kind, hk]; rfl)) (hn _ _ hs)
      exact ⟨w1, e1⟩
  have := h.ok L e1
  simp only [specStep, hs, Option.map_some] at this
  exact ⟨w1, e1, this⟩

/-- Null pointers of one and of several methods, converted. -/
example : ∃ w S, Reach exCfg w S ∧
    (decide ((S 2).map (·.target) = some none) && decide ((S 3).map (·.target) = some none) &&
     decide ((S 4).map (·.target) = some none)) = true :=
  run_witness 6 (ops := [.mem (.allocCtor 0 exMs 1), .ofAny 0 .polyPtr exMs (some 0), .ofNullT 1 .polyPtr [.user 0] 2,
    .conv 2 .constPolyPtr [.typeInfo, .user 0] 0, .conv 3 .constPolyPtr [.user 0] 1, .constCast 4 3]) (by decide +kernel)

/-! ### C36 -/

/-- C36 fails: `poly_ptr<Ms...>` of fewer methods than the any can be built, `const_poly_ptr<Ms...>` not. -/
theorem C36_fails : ∃ ms anyMs, polyPtrFromAnyOk ms anyMs = true ∧ constPolyPtrFromAnyCompiles ms anyMs = false :=
  ⟨[.user 0], [.destroy, .user 0], by decide, by decide⟩

/-- C36, the exact extent: `const_poly_ptr<Ms...>(const Any*)` compiles only if `Ms...` are all methods of
the any. -/
theorem C36_equal_lists_partial (ms anyMs : List Method) : constPolyPtrFromAnyCompiles ms anyMs = true ↔ ms = anyMs := by
  unfold constPolyPtrFromAnyCompiles constPolyPtrFromAnyOk
  rw [Bool.and_eq_true, hasSubsequence_iff, hasSubsequence_iff, occurs_infix, occurs_infix]
  constructor
  · rintro ⟨h1, h2⟩
    exact h2.eq_of_length_le h1.length_le
  · rintro rfl; exact ⟨List.infix_refl _, List.infix_refl _⟩

/-- `poly_ptr<Ms...>(Any*)` compiles exactly for contiguous sublists. -/
theorem C36_poly_ptr (ms anyMs : List Method) : polyPtrFromAnyOk ms anyMs = true ↔ ms <:+: anyMs := by
  unfold polyPtrFromAnyOk
  rw [hasSubsequence_iff, occurs_infix]

/-! ### C37 -/

/-- C37 for poly_ptr and const_poly_ptr: `any_cast<T>(p)` is the address of the object iff its dynamic type
is `T`; null otherwise, also for null pointers. Nothing changes. -/
theorem C37_poly_ptr (C : CfgOk cfg) {w : PW} {S : SRefs} (h : Reach cfg w S) {n t : Nat} {s : SRef} (hs : S n = some s)
    (hti : Mem.HasDesc s.ms) :
    Returns w (anyCastPtr (.var n) t) (match s.target with
      | some (T, a) => if T = t then some a else none
      | none => none) := by
  have I := h.inv C
  obtain ⟨o, hr, A⟩ := I.get hs
  have hm := A.means
  cases ht : s.target with
  | none => rw [ht] at hm; exact (anyCastPtr_null I.fresh hr hm).returns
  | some p => rw [ht] at hm; exact (anyCastPtr_ev I.fresh hr hm (by rw [A.ms]; exact hti)).returns

/-- C37 for poly_ref, const_poly_ref, stateful::ref and stateful::cref: `any_cast<T&>(r)` refers to the object
iff its dynamic type is `T`; otherwise it throws `bad_cast`. Nothing changes. -/
theorem C37_poly_ref (C : CfgOk cfg) {w : PW} {S : SRefs} (h : Reach cfg w S) {n t T : Nat} {a : Addr} {s : SRef}
    (hs : S n = some s) (ht : s.target = some (T, a)) (hti : Mem.HasDesc s.ms) :
    (T = t → Returns w (anyCastRef (.var n) t) a) ∧ (T ≠ t → Throws w (anyCastRef (.var n) t)) := by
  have I := h.inv C
  obtain ⟨o, hr, A⟩ := I.get hs
  have hm := A.means
  rw [ht] at hm
  have := anyCastRef_res (t := t) I.fresh hr hm (by rw [A.ms]; exact hti)
  exact ⟨fun he => (this.1 he).returns, fun he => (this.2 he).throws⟩

/-- References (not pointers) always refer to an object, so `C37_poly_ref` applies to all of them. -/
theorem C37_ref_target (C : CfgOk cfg) {w : PW} {S : SRefs} (h : Reach cfg w S) {n : Nat} {s : SRef} (hs : S n = some s)
    (hp : s.kind.isPtr = false) : ∃ T a, s.target = some (T, a) := by
  obtain ⟨o, hr, A⟩ := (h.inv C).get hs
  have hm := A.means
  cases ht : s.target with
  | none => rw [ht] at hm; have := IsNull.ptr hm; rw [A.kind, hp] at this; cases this
  | some p => exact ⟨p.1, p.2, rfl⟩

example : ∃ w S, Reach exCfg w S ∧
    (decide ((S 1).map (fun s => (s.kind, s.target)) = some (.polyRef, some (2, .mem (.blk 0)))) &&
     ((S 1).any fun s => s.ms.contains .typeInfo)) = true :=
  run_witness 6 (ops := exProg) (by decide +kernel)

/-! ### C38 -/

/-- C38: `==` of polymorphic pointers, for all four combinations of `poly_ptr` and `const_poly_ptr`, is true
exactly for equal targets: both null, or equal address and equal dynamic type. -/
theorem C38_equality (C : CfgOk cfg) {w : PW} {S : SRefs} (h : Reach cfg w S) {m n : Nat} {s t : SRef} (hs : S m = some s)
    (ht : S n = some t) (hps : s.kind.isPtr = true) (hpt : t.kind.isPtr = true) (his : Mem.HasDesc s.ms) (hit : Mem.HasDesc t.ms) :
    Returns w (ptrEq (.var m) (.var n)) (decide (s.target = t.target)) := by
  have I := h.inv C
  obtain ⟨o, hr, A⟩ := I.get hs
  obtain ⟨o', hr', A'⟩ := I.get ht
  exact (ptrEq_ev I.fresh hr hr' A.means A'.means (by rw [A.ms]; exact his) (by rw [A'.ms]; exact hit)
    (by rw [A.kind]; exact hps) (by rw [A'.kind]; exact hpt)).returns

/-- C38: hence an equivalence relation on the pointers of a state. -/
theorem C38_equivalence (C : CfgOk cfg) {w : PW} {S : SRefs} (h : Reach cfg w S) :
    let P := fun n => ∃ s, S n = some s ∧ s.kind.isPtr = true ∧ Mem.HasDesc s.ms
    let E := fun m n => Returns w (ptrEq (.var m) (.var n)) true
    (∀ n, P n → E n n) ∧ (∀ m n, P m → P n → E m n → E n m) ∧ (∀ l m n, P l → P m → P n → E l m → E m n → E l n) := by
  intro P E
  have key : ∀ m n, P m → P n → (E m n ↔ (S m).map (·.target) = (S n).map (·.target)) := by
    rintro m n ⟨s, hs, h1, h2⟩ ⟨t, ht, h3, h4⟩
    have := C38_equality C h hs ht h1 h3 h2 h4
    rw [hs, ht]
    simp only [Option.map_some, Option.some.injEq]
    constructor
    · rintro ⟨w', e, _⟩
      obtain ⟨w2, e2, _⟩ := this
      rw [e] at e2
      injection e2 with e2
      simpa using e2.symm
    · intro he
      rw [decide_eq_true he] at this; exact this
  exact ⟨fun n hn => (key n n hn hn).2 rfl, fun m n hm hn he => (key n m hn hm).2 ((key m n hm hn).1 he).symm,
    fun l m n hl hm hn h1 h2 => (key l n hl hn).2 (((key l m hl hm).1 h1).trans ((key m n hm hn).1 h2))⟩

/-- What `std::hash` of a pointer gives. -/
theorem ptrHash_ev {w : PW} {hash : Option Addr → Nat} {i : Nat} {x : RefObj} (hx : w.refs (.var i) = some x) :
    Ev w (ptrHash hash (.var i)) (if hashCompiles x.kind then some (hash x.val) else none) := by
  refine Ev.bind (getRef_ev hx) fun j _ => ?_
  have : Ev { w with tmps := j } (raw (.var i)) x.val := Ev.bind (getRef_ev hx) fun j _ => Ev.pure _ _
  exact Ev.bind this fun j _ => Ev.pure _ _

/-- C38: equal `poly_ptr`s hash equally: the hash is that of the address, whatever the hash of addresses and whatever the type. -/
theorem C38_hash_partial (C : CfgOk cfg) {w : PW} {S : SRefs} (h : Reach cfg w S) (hash : Option Addr → Nat) {m n : Nat} {s t : SRef}
    (hs : S m = some s) (ht : S n = some t) (hks : s.kind = .polyPtr) (hkt : t.kind = .polyPtr)
    (he : s.target.map (·.2) = t.target.map (·.2)) :
    Returns w (ptrHash hash (.var m)) (some (hash (s.target.map (·.2)))) ∧
    Returns w (ptrHash hash (.var n)) (some (hash (s.target.map (·.2)))) := by
  have I := h.inv C
  obtain ⟨o, hr, A⟩ := I.get hs
  obtain ⟨o', hr', A'⟩ := I.get ht
  have h1 := ptrHash_ev (hash := hash) hr
  have h2 := ptrHash_ev (hash := hash) hr'
  rw [A.kind, hks, A.means.val] at h1
  rw [A'.kind, hkt, A'.means.val, ← he] at h2
  exact ⟨h1.returns, h2.returns⟩

/-- C38 fails: `std::hash` of a `const_poly_ptr` does not compile. -/
theorem C38_hash_fails (C : CfgOk cfg) {w : PW} {S : SRefs} (h : Reach cfg w S) (hash : Option Addr → Nat) {n : Nat} {s : SRef}
    (hs : S n = some s) (hk : s.kind = .constPolyPtr) : Returns w (ptrHash hash (.var n)) none := by
  obtain ⟨o, hr, A⟩ := (h.inv C).get hs
  have h1 := ptrHash_ev (hash := hash) hr
  rw [A.kind, hk] at h1
  exact h1.returns

/-- Equal and unequal pointers of all classes. -/
example : ∃ w S, Reach exCfg w S ∧
    (decide ((S 0).map (·.target) = (S 1).map (·.target)) && decide ((S 0).map (·.kind) ≠ (S 1).map (·.kind)) &&
     decide ((S 0).map (·.target) ≠ (S 2).map (·.target)) && (S 2).any (fun s => s.ms.contains .typeInfo)) = true :=
  run_witness 6 (ops := [.newVar 5 1 9, .newVar 6 1 9, .ofVar 0 .polyPtr [.typeInfo, .user 0] 5, .ofVar 1 .constPolyPtr [.typeInfo] 5,
    .ofVar 2 .constPolyPtr [.typeInfo, .user 0] 6]) (by decide +kernel)

/-! ### C62 -/

/-- C62 for references: a call through a reference to a live object applies the implementation for the
dynamic type to the value of the object and returns its result. The object then has the new value, for a
non-const method, or the old one; nothing else changes. A method taking its argument by value copies
the object; if that throws, nothing changes at all. If the method itself throws, the exception reaches the
caller; a non-const method leaves the object with the value it had given it by then, other methods change nothing. -/
theorem C62_invoke_reference (C : CfgOk cfg) {w : PW} {S : SRefs} (h : Reach cfg w S) {n m x T v : Nat} {a : Addr} {s : SRef}
    (hs : S n = some s) (ht : s.target = some (T, a)) (hm : .user m ∈ s.ms) (hv : holds w T v a) :
    (∃ w', invokeRef cfg (.var n) m x w = .ok (cfg.impl m T v x).1 w' ∧
      holds w' T (match cfg.kind m with | .mutRef => (cfg.impl m T v x).2 | _ => v) a ∧ OnlyAt w w' a) ∨
    (cfg.kind m = .byValue ∧ (cfg.ty T).nothrowCopy = false ∧ ∃ w', invokeRef cfg (.var n) m x w = .exn w' ∧
      snap w'.mem = snap w.mem ∧ w'.vars = w.vars ∧ w'.refs = w.refs) ∨
    (cfg.methodNothrow m T = false ∧ ∃ w', invokeRef cfg (.var n) m x w = .exn w' ∧
      holds w' T (match cfg.kind m with | .mutRef => cfg.partway m T v x | _ => v) a ∧ OnlyAt w w' a ∧
      (cfg.kind m ≠ .mutRef → snap w'.mem = snap w.mem ∧ w'.vars = w.vars)) := by
  have I := h.inv C
  obtain ⟨j, hj, he⟩ := invokeRef_eval (x := x) I hs ht hm
  have hv' : holds { w with tmps := j } T v a := by cases a <;> exact hv
  rcases callEntry_spec (m := m) (x := x) (w := { w with tmps := j }) I.wf hv' with ⟨w', h1, _, h2, h3, _⟩ | ⟨h1, h2, w', h3, _, _, h4, h5, h6, _⟩ |
    ⟨h1, w', h2, _, h3, h4, h5, _⟩
  · exact Or.inl ⟨w', by rw [he, h1], h2, h3⟩
  · exact Or.inr (Or.inl ⟨h1, h2, w', by rw [he, h3], h4, h5, h6⟩)
  · exact Or.inr (Or.inr ⟨h1, w', by rw [he, h2], h3, h4, h5⟩)

example : ∃ w S, Reach exCfg w S ∧
    ((S 2).any (fun s => decide (s.target = some (2, .mem (.blk 0))) && s.ms.contains (.user 1)) &&
     decide (Mem.view w.mem 0 = some (2, 74)) && decide (addrOf w.mem 0 = some (.blk 0))) = true :=
  run_witness 6 (ops := exProg) (by decide +kernel)

/-! ### C22 -/

/-- Conversion to a const_poly_ref of the same methods copies the vtable pointer. -/
theorem convRef_same {w : PW} {r : RId} {o : RefObj} {k : Kind} {q : VP} (hw : Fresh w) (hr : w.refs r = some o)
    (hb : byValue o.ms = false) (hq : o.view = .ptr (some q)) :
    Ev w (convRef k o.ms r) ⟨k, o.ms, .ptr (some q), o.val⟩ := by
  refine Ev.bind (getRef_ev hr) fun j hj => Ev.withTemp (hw.le hj) ?_
  have hv : Ev (push { w with tmps := j } o) (vtablePtr (.tmp j)) (some q) := by
    refine Ev.bind (getRef_ev (push_same _ _)) fun i _ => ?_
    rw [hq]; exact Ev.pure _ _
  refine Ev.bind hv fun i _ => Ev.bind (a := q) (Ev.pure _ _) fun i2 _ => Ev.bind (a := q) ?_ fun i3 _ => Ev.bind (a := .ptr (some q)) ?_ fun i4 _ => ?_
  · rw [subtable, if_pos rfl]; exact Ev.pure _ _
  · rw [mkView, if_neg (by simp [hb])]; exact Ev.pure _ _
  · exact Ev.pure _ _

theorem two_methods {ms : List Method} (h1 : .copy 0 ∈ ms) (h2 : .destroy ∈ ms) : byValue ms = false := by
  cases hb : byValue ms with
  | false => rfl
  | true =>
    have hlen : ms.length = 1 := by simpa [byValue] using hb
    match ms, hlen with
    | [x], _ =>
      simp only [List.mem_singleton] at h1 h2
      rw [← h1] at h2; cases h2

/-- C22 holds for poly references that are not views of a stateful reference: the vtable pointer stored in
the new any stays usable for all methods and the dynamic type in every later state `w'`. -/
theorem C22_poly_reference_partial (C : CfgOk cfg) {w : PW} {S : SRefs} (h : Reach cfg w S) {n T : Nat} {a : Addr} {s : SRef}
    (hs : S n = some s) (ht : s.target = some (T, a)) (hk : s.kind.isStateful = false) (hl : s.lender = none)
    (hcopy : .copy 0 ∈ s.ms) (hdestroy : .destroy ∈ s.ms) :
    ∃ p, Returns w (materializeParts (.var n)) (some p, some a) ∧
      ∀ w' i m, s.ms[i]? = some m → entryAt p i w' = .ok (some ⟨m, T⟩) w' := by
  have I := h.inv C
  obtain ⟨o, hr, A⟩ := I.get hs
  have hd : Den w o T a none := by have := A.means; rw [ht, hl] at this; exact this
  have hso : o.kind.isStateful = false := by rw [A.kind]; exact hk
  have hne : o.ms ≠ [] := by rw [A.ms]; intro h0; rw [h0] at hcopy; cases hcopy
  have hb : byValue o.ms = false := by rw [A.ms]; exact two_methods hcopy hdestroy
  obtain ⟨q, hq, h4, h5⟩ := hd.byPtr (by simp [viewVal, hso, hb])
  refine ⟨q, ?_, ?_⟩
  · have : Ev w (materializeParts (.var n)) (some q, some a) := by
      refine Ev.bind (getRef_ev hr) fun j hj => ?_
      rw [if_neg (by simp [hso])]
      refine Ev.bind (convRef_same (w := { w with tmps := j }) (I.fresh.le hj) hr hb hq) fun i hi => Ev.withTemp ((I.fresh.le hj).le hi) ?_
      refine Ev.bind (a := some q) (Ev.bind (getRef_ev (push_same _ _)) fun i2 _ => Ev.pure _ _) fun i3 _ => ?_
      simp only [hd.val]; exact Ev.pure _ _
    exact this.returns
  · intro w' i m hi
    rw [← A.ms] at hi
    have := h4 i m hi 0
    cases q with
    | inRef r off => obtain ⟨_, _, h⟩ := h5 hne r off rfl; cases h
    | static v =>
      simp only [entryAt] at this ⊢
      cases hv : v.table[v.off + i]? with
      | none => rw [hv] at this; cases this
      | some y =>
        rw [hv] at this
        simp only [PRes.ok.injEq] at this
        simp [this.1]

/-- C22 fails for stateful references: the vtable pointer stored in the new any points into the stateful
reference, so using the any after that reference is gone is undefined. -/
theorem C22_stateful_fails (C : CfgOk cfg) {w : PW} {S : SRefs} (h : Reach cfg w S) {n T : Nat} {a : Addr} {s : SRef}
    (hs : S n = some s) (ht : s.target = some (T, a)) (hk : s.kind.isStateful = true)
    (hcopy : .copy 0 ∈ s.ms) (hdestroy : .destroy ∈ s.ms) :
    Returns w (materializeParts (.var n)) (some (.inRef (.var n) 0), some a) ∧
      ∀ w' i, exec cfg (.drop n) w = .ok () w' → entryAt (.inRef (.var n) 0) i w' = .ub := by
  have I := h.inv C
  obtain ⟨o, hr, A⟩ := I.get hs
  have hd : Den w o T a s.lender := by have := A.means; rw [ht] at this; exact this
  have hso : o.kind.isStateful = true := by rw [A.kind]; exact hk
  have hb : byValue o.ms = false := by rw [A.ms]; exact two_methods hcopy hdestroy
  refine ⟨?_, ?_⟩
  · have : Ev w (materializeParts (.var n)) (some (.inRef (.var n) 0), some a) := by
      refine Ev.bind (getRef_ev hr) fun j hj => ?_
      rw [if_pos hso]
      have hw := I.fresh.le hj
      have hv : Ev { w with tmps := j } (getView (.var n))
          ⟨if o.kind.isConst then .constPolyRef else .polyRef, o.ms, .ptr (some (.inRef (.var n) 0)), some a⟩ := by
        refine Ev.bind (getRef_ev (w := { w with tmps := j }) hr) fun i hi => Ev.bind (a := .ptr (some (.inRef (.var n) 0))) ?_ fun i2 hi2 => ?_
        · rw [mkView, if_neg (by simp [hb])]; exact Ev.pure _ _
        · refine Ev.withTemp ((hw.le hi).le hi2) (Ev.bind (getRef_ev (push_same _ _)) fun i3 _ => ?_)
          cases hc : o.kind.isConst
          · simp only [hd.val, Kind.isConst, Bool.false_eq_true, if_false, Option.isNone_some]; exact Ev.pure _ _
          · simp only [hd.val, Kind.isConst, if_true]; exact Ev.pure _ _
      refine Ev.bind hv fun i hi => Ev.withTemp (hw.le hi) ?_
      have hw2 := (hw.le hi).push ⟨if o.kind.isConst then .constPolyRef else .polyRef, o.ms, .ptr (some (.inRef (.var n) 0)), some a⟩
      refine Ev.bind (convRef_same (k := .constPolyRef) (q := .inRef (.var n) 0)
        (o := ⟨if o.kind.isConst then .constPolyRef else .polyRef, o.ms, .ptr (some (.inRef (.var n) 0)), some a⟩)
        hw2 (push_same _ _) hb rfl) fun i2 hi2 => Ev.withTemp (hw2.le hi2) ?_
      exact Ev.bind (a := some (.inRef (.var n) 0)) (Ev.bind (getRef_ev (push_same _ _)) fun i3 _ => Ev.pure _ _) fun i4 _ => Ev.pure _ _
    exact this.returns
  · intro w' i he
    simp only [exec, setRef] at he
    cases he
    simp [entryAt]

example : ∃ w S, Reach exCfg w S ∧
    ((S 0).any (fun s => decide (s.kind = .ref) && s.ms.contains (.copy 0) && s.ms.contains .destroy && s.target.isSome) &&
     (S 1).any (fun s => decide (s.kind = .polyRef) && s.ms.contains (.copy 0) && s.ms.contains .destroy && s.target.isSome &&
       s.lender.isNone)) = true :=
  run_witness 6 (ops := [.newVar 5 1 9, .ofVar 0 .ref exMs 5, .ofVar 1 .polyRef exMs 5]) (by decide +kernel)

end AnyAny.Poly
