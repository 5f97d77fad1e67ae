import Verif.Props.AnyOps
import Verif.Props.Reentry
import Verif.Props.CtorReentry
import Verif.Props.NestedCmp
import Verif.Props.Compare
import Verif.Props.ValueAlloc
import Verif.Props.Swarm
import Verif.Props.SwarmReentry
/-
Validation of the simplified models of `basic_any`. Model/Reentry.lean, Model/CtorReentry.lean, Model/Nested.lean and Model/ValueAlloc.lean leave out memory,
exceptions or allocators. Here: wherever what they add is not used (destructors and constructors that do not use anys, values without anys, types without
allocators), they have the effect that Model/AnyMem.lean has, in every world a program can reach. Likewise Model/SwarmReentry.lean and Model/Swarm.lean,
for visitors that only replace the values they are called with.
-/
namespace AnyAny.Check
open AnyAny.Mem

variable {cfg : Cfg}

/-- The contents of all anys, values numbered by `enc`; without a difference between an any without a value and no any. -/
def contents (enc : Nat × Nat → Nat) (w : World) : Nat → Option Nat := fun a => ((vals w a).join).map enc

private theorem contents_upd (enc : Nat × Nat → Nat) (V : Vals) (a : Nat) (x : Option (Option (Nat × Nat))) :
    (fun b => ((upd V a x b).join).map enc) = Reentry.upd (fun b => ((V b).join).map enc) a (x.join.map enc) := by
  funext b; by_cases h : b = a <;> simp [upd, Reentry.upd, h]

private theorem contents_upd' (enc : Nat × Nat → Nat) (V : Vals) (a : Nat) (x : Option (Option (Nat × Nat))) :
    (fun b => ((upd V a x b).join).map enc) = CtorReentry.upd (fun b => ((V b).join).map enc) a (x.join.map enc) := by
  funext b; by_cases h : b = a <;> simp [upd, CtorReentry.upd, h]

private theorem vals_alive {w : World} {a : Nat} {s : Snap} (h : snap w a = some s) : ∃ v, vals w a = some v := by
  unfold snap at h
  obtain ⟨x, hx, _⟩ := Option.map_eq_some_iff.1 h
  exact ⟨_, by unfold vals; rw [hx]; rfl⟩

/-! ### Destructors (C96) -/

/-- The operation of Model/Reentry.lean for one of Model/AnyMem.lean, if there is one. -/
def toReentry (enc : Nat × Nat → Nat) (V : Vals) : Op → Option (Reentry.Prog → Reentry.Prog)
  | .reset a | .destroyValue a => some (.reset a)
  | .emplace a t arg _ => some (.emplace a (enc (t, arg.value V)))
  | .moveAssign a o => some (.moveAssign a o)
  | _ => none

/-- With destructors that do not use anys, Model/Reentry.lean has the effect of Model/AnyMem.lean on the contents. -/
theorem reentry_agrees (C : CfgOk cfg) {w w' : World} {op : Op} (h : Reachable cfg w) (L : Legal cfg w op)
    (he : exec cfg op w = .ok () w') (enc : Nat × Nat → Nat) {p : Reentry.Prog → Reentry.Prog}
    (hp : toReentry enc (vals w) op = some p) (n : Nat) (k : Reentry.Prog) :
    Reentry.run (fun _ => .done) (n + 2) (p k) (.start (contents enc w)) = Reentry.run (fun _ => .done) (n + 1) k (.start (contents enc w')) := by
  have hv := C04_values_step C h L he
  have dv : ∀ a (V : Reentry.Vals), Reentry.destroyValue (fun _ => .done) (Reentry.run (fun _ => .done) (n + 1)) a (.start V)
      = .ok (.start (Reentry.upd V a none)) := by
    intro a V
    unfold Reentry.destroyValue
    cases hV : V a with
    | none =>
      have : Reentry.upd V a none = V := by funext b; by_cases hb : b = a <;> simp [Reentry.upd, hb, hV]
      simp [Reentry.St.start, hV, this]
    | some v =>
      have : Reentry.upd (Reentry.upd (fun _ => false) a true) a false = fun _ => false := by
        funext b; by_cases hb : b = a <;> simp [Reentry.upd, hb]
      simp [Reentry.St.start, hV, Reentry.run, Reentry.Out.bind, this]
  unfold contents
  rw [hv]
  cases op <;> simp only [toReentry, Option.some.injEq, reduceCtorEq] at hp <;> subst hp
  case reset a => simp [Reentry.run, dv, Reentry.Out.bind, specStep, contents_upd]
  case destroyValue a => simp [Reentry.run, dv, Reentry.Out.bind, specStep, contents_upd]
  case emplace a t arg m =>
    simp only [Reentry.run, dv, Reentry.Out.bind, specStep, contents_upd, Option.join_some, Option.map_some]
    congr 1
    simp only [Reentry.St.start, Reentry.St.mk.injEq, and_true]
    funext b; by_cases hb : b = a <;> simp [Reentry.upd, hb]
  case moveAssign a o =>
    simp only [Reentry.run, specStep]
    by_cases hao : a = o
    · simp [hao]
    · simp only [hao, if_false, dv, Reentry.Out.bind, contents_upd]
      have hoa : o ≠ a := fun h => hao h.symm
      unfold Reentry.moveValueFrom
      simp only [Reentry.St.start, Reentry.upd, hoa, if_false]
      cases hx : ((vals w o).join).map enc with
      | none =>
        simp only []
        congr 2
        funext b
        by_cases hb : b = a
        · simp [Reentry.upd, hb]
        · by_cases hbo : b = o <;> simp [Reentry.upd, hb, hbo, hx]
      | some v =>
        simp only [Bool.false_eq_true, if_false]
        congr 2
        funext b
        by_cases hb : b = a
        · simp [Reentry.upd, hb]
        · by_cases hbo : b = o <;> simp [Reentry.upd, hb, hbo]

/-! ### Constructors (C116) -/

/-- The operation of Model/CtorReentry.lean for one of Model/AnyMem.lean, if there is one. -/
def toCtorReentry (enc : Nat × Nat → Nat) (V : Vals) : Op → Option (CtorReentry.Prog → CtorReentry.Prog)
  | .reset a => some (.reset a)
  | .emplace a t arg _ => some fun k => .emplace a (enc (t, arg.value V)) fun threw => if threw then .raise else k
  | .moveAssign a o => some (.moveAssign a o)
  | .copyAssign a o _ => some fun k => .copyAssign a o fun threw => if threw then .raise else k
  | _ => none

private theorem emptied {T : Nat → CtorReentry.Ty} (hD : ∀ v, (T v).dtor = .done) {n : Nat} {bld dy src : List Nat} {a : Nat} {s : CtorReentry.Vals} :
    CtorReentry.empty T (fun p dy => CtorReentry.spec T (n + 1) p bld dy src) dy a s = some ⟨CtorReentry.upd s a none, false, .returned⟩ := by
  unfold CtorReentry.empty
  cases hv : s a with
  | none => simp only [Option.some.injEq, CtorReentry.Fin.mk.injEq, and_true]; funext c; by_cases h : c = a <;> simp [CtorReentry.upd, h, hv]
  | some x =>
    simp only [hD, CtorReentry.spec, Option.map_some, Option.some.injEq, CtorReentry.Fin.mk.injEq, and_true]
    funext c; by_cases h : c = a <;> simp [CtorReentry.upd, h]

/-- With constructors, destructors and copy constructors that do not use anys, Model/CtorReentry.lean has the effect of Model/AnyMem.lean on the contents, for all sizes of the types. -/
theorem ctorReentry_agrees (C : CfgOk cfg) {w w' : World} {op : Op} (h : Reachable cfg w) (L : Legal cfg w op)
    (he : exec cfg op w = .ok () w') (enc : Nat × Nat → Nat) {p : CtorReentry.Prog → CtorReentry.Prog}
    (hp : toCtorReentry enc (vals w) op = some p) (T : Nat → CtorReentry.Ty) (hT : ∀ v, (T v).ctor = .done) (hD : ∀ v, (T v).dtor = .done)
    (hC : ∀ v, (T v).copy = .done) {s : CtorReentry.St} (hs : CtorReentry.Rest s) (hv : s.vals = contents enc w) (n : Nat) :
    ∃ s', CtorReentry.run T (n + 2) (p .done) s = .ok s' ∧ CtorReentry.Rest s' ∧ s'.vals = contents enc w' := by
  have hc : CtorReentry.spec T (n + 2) (p .done) [] [] [] s.vals = some ⟨contents enc w', false, .returned⟩ := by
    have hw := C04_values_step C h L he
    unfold contents
    rw [hv, hw]
    unfold contents
    cases op <;> simp only [toCtorReentry, Option.some.injEq, reduceCtorEq] at hp <;> subst hp
    case reset a => simp [CtorReentry.spec, CtorReentry.using_, CtorReentry.andThen, CtorReentry.after, emptied hD, specStep, contents_upd']
    case emplace a t arg m =>
      simp only [CtorReentry.spec, CtorReentry.using_, CtorReentry.andThen, CtorReentry.after, CtorReentry.constructing, emptied hD, hT, specStep, contents_upd', Option.join_some,
        Option.map_some, Option.bind_some, Option.some.injEq, CtorReentry.Fin.mk.injEq, Bool.or_false, List.append_nil, List.contains_nil, and_true,
        Bool.false_eq_true, if_false]
      funext b; by_cases hb : b = a <;> simp [CtorReentry.upd, hb]
    case moveAssign a o =>
      by_cases hao : a = o
      · simp [CtorReentry.spec, specStep, hao]
      · simp [CtorReentry.spec, CtorReentry.using_, CtorReentry.andThen, CtorReentry.after, emptied hD, specStep, hao, contents_upd']
        funext b
        by_cases hb : b = a
        · simp [CtorReentry.upd, hb, Ne.symm hao]
        · by_cases ho : b = o
          · subst ho; simp [CtorReentry.upd, hb]
          · simp [CtorReentry.upd, hb, ho]
    case copyAssign a o tmp =>
      simp only [CtorReentry.spec, CtorReentry.using_, CtorReentry.andThen, CtorReentry.after, CtorReentry.constructing, hC, specStep, contents_upd']
      cases hx : (vals w o).join with
      | none => simp [emptied hD, CtorReentry.spec]
      | some x =>
        simp only [Option.map_some, emptied hD, Option.bind_some, Bool.false_eq_true, if_false, CtorReentry.spec, Option.some.injEq, CtorReentry.Fin.mk.injEq, List.append_nil,
          List.contains_nil, Bool.or_false, and_true]
        funext b; by_cases hb : b = a <;> simp [CtorReentry.upd, hb]
  obtain ⟨s', h1, h2, h3⟩ := CtorReentry.C116_partial T (n + 2) (p .done) s hs _ hc rfl
  exact ⟨s', h1, h3, h2⟩

/-- The same for an `emplace` with a constructor that throws. -/
theorem ctorReentry_throws_agrees (C : CfgOk cfg) {w w' : World} {a t : Nat} {arg : ArgSrc} {m : Bool} (h : Reachable cfg w)
    (L : Legal cfg w (.emplace a t arg m)) (he : exec cfg (.emplace a t arg m) w = .exn w') (enc : Nat × Nat → Nat) (T : Nat → CtorReentry.Ty)
    (v : Nat) (hT : (T v).ctor = .raise) (hn : (T v).nothrow = false) (hD : ∀ v, (T v).dtor = .done)
    {s : CtorReentry.St} (hs : CtorReentry.Rest s) (hv : s.vals = contents enc w) (n : Nat) :
    ∃ s', CtorReentry.run T (n + 2) (.emplace a v fun threw => if threw then .raise else .done) s = .exn s' ∧ CtorReentry.Rest s' ∧
      s'.vals = contents enc w' := by
  obtain ⟨w1, h1, _, h3, _⟩ := C10_emplace C h L
  have hw : w1 = w' ∧ content w1 a = none := by
    rcases h1 with ⟨h1, _⟩ | ⟨h1, h2⟩
    · rw [he] at h1; cases h1
    · rw [he] at h1; cases h1; exact ⟨rfl, h2⟩
  obtain ⟨rfl, hc⟩ := hw
  have hc : CtorReentry.spec T (n + 2) (.emplace a v fun threw => if threw then .raise else .done) [] [] [] s.vals = some ⟨contents enc w1, false, .threw⟩ := by
    simp only [CtorReentry.spec, CtorReentry.using_, CtorReentry.andThen, CtorReentry.after, CtorReentry.constructing, emptied hD, hT, hn, List.append_nil, Option.map_some, Option.bind_some, if_true, Option.some.injEq,
      CtorReentry.Fin.mk.injEq, Bool.or_false, List.contains_nil, and_true]
    rw [hv]
    funext b
    by_cases hb : b = a
    · subst hb
      have : view w1 b = none := by simp [view, hc]
      simp only [CtorReentry.upd, if_true, contents, vals, this]
      cases w1.anys b <;> rfl
    · have hb' := h3 b hb
      simp only [CtorReentry.upd, hb, if_false, contents, vals]
      unfold snap at hb'
      cases hx : w.anys b <;> cases hy : w1.anys b <;> rw [hx, hy] at hb' <;> simp at hb'
      · rfl
      · simp [view, hb']
  obtain ⟨s', h1, h2, h3⟩ := CtorReentry.C116_partial T (n + 2) _ s hs _ hc rfl
  exact ⟨s', h1, h3, h2⟩

/-! ### Values with anys in them (C95) -/

/-- The variables, with values in which there are no anys. -/
def trees (w : World) : Nested.World := fun a => ((vals w a).join).map fun x => .mk x.1 x.2 []

/-- The traits of the allocator. -/
def nestedCfg (cfg : Cfg) : Nested.Cfg := ⟨cfg.alwaysEq, cfg.pocca, cfg.pocma⟩

private theorem trees_upd (V : Vals) (a : Nat) (x : Option (Option (Nat × Nat))) :
    (fun b => ((upd V a x b).join).map fun x => Nested.Val.mk x.1 x.2 [])
      = Nested.World.set (fun b => ((V b).join).map fun x => Nested.Val.mk x.1 x.2 []) ⟨a, []⟩ (x.join.map fun x => .mk x.1 x.2 []) := by
  funext b; by_cases h : b = a <;> simp [upd, Nested.World.set, Nested.put, h]

private theorem get_var (w : Nested.World) (a : Nat) : w.get ⟨a, []⟩ = some (w a) := by simp [Nested.World.get, Nested.lookup]

/-- For anys that are variables Model/Nested.lean has the effect of Model/AnyMem.lean on the contents: move assignment. -/
theorem nested_move_agrees (C : CfgOk cfg) {w w' : World} {a o : Nat} (h : Reachable cfg w) (L : Legal cfg w (.moveAssign a o))
    (he : exec cfg (.moveAssign a o) w = .ok () w') (unequal : Bool) :
    Nested.moveAssign (nestedCfg cfg) unequal (trees w) ⟨a, []⟩ ⟨o, []⟩ = some (trees w') := by
  have hap : (⟨a, []⟩ : Nested.Loc) = ⟨o, []⟩ ∨ Nested.Apart ⟨a, []⟩ ⟨o, []⟩ := by
    by_cases hao : a = o
    · exact .inl (by rw [hao])
    · refine .inr ⟨fun e => hao (by injection e), ?_, ?_⟩ <;> rintro ⟨e, _⟩
      · exact hao e.symm
      · exact hao e
  obtain ⟨h1, -⟩ := Nested.C95_move_partial (nestedCfg cfg) unequal (trees w) (l := ⟨a, []⟩) (s := ⟨o, []⟩) (by simp [get_var])
    (by simp [get_var]) hap
  have hv := C04_values_step C h L he
  rw [h1]
  unfold Nested.stdMoveAssign
  simp only [get_var, Option.bind_eq_bind, Option.bind_some, Option.pure_def, Option.some.injEq]
  show _ = fun b => ((vals w' b).join).map fun x => Nested.Val.mk x.1 x.2 []
  rw [hv]
  simp only [specStep]
  by_cases hao : a = o
  · subst hao
    rw [if_pos rfl]
    funext b; by_cases hb : b = a <;> simp [Nested.World.set, Nested.put, hb, trees]
  · rw [if_neg hao, trees_upd, trees_upd]; rfl

/-- Copy assignment. -/
theorem nested_copy_agrees (C : CfgOk cfg) {w w' : World} {a o tmp : Nat} (h : Reachable cfg w) (L : Legal cfg w (.copyAssign a o tmp))
    (he : exec cfg (.copyAssign a o tmp) w = .ok () w') (unequal : Bool) :
    Nested.copyAssign (nestedCfg cfg) unequal (trees w) ⟨a, []⟩ ⟨o, []⟩ = some (trees w') := by
  obtain ⟨h1, -⟩ := Nested.C95_copy_partial (nestedCfg cfg) unequal (trees w) (l := ⟨a, []⟩) (s := ⟨o, []⟩) (by simp [get_var])
    (by simp [get_var]) (.inr (.inr (.inr (by rintro ⟨_, i, p, e⟩; simp at e))))
  have hv := C04_values_step C h L he
  rw [h1]
  unfold Nested.stdCopyAssign
  simp only [get_var, Option.bind_eq_bind, Option.bind_some, Option.pure_def, Option.some.injEq]
  show _ = fun b => ((vals w' b).join).map fun x => Nested.Val.mk x.1 x.2 []
  rw [hv]
  simp only [specStep]
  rw [trees_upd]; rfl

/-! ### Allocators of values (C110) -/

/-- The anys with their allocators and values, values numbered by `enc`; all memory resources exist. -/
def allocs (enc : Nat × Nat → Nat) (w : World) : ValueAlloc.W :=
  ⟨fun a => (w.anys a).map fun s => ⟨s.al, (view w a).map fun x => ⟨enc x, none⟩⟩, fun _ => false⟩

/-- The traits of the allocator. -/
def allocCfg (cfg : Cfg) (constructs : Bool) : ValueAlloc.Cfg := ⟨cfg.pocma, cfg.pocca, cfg.soccc, cfg.defaultAlloc, constructs⟩

/-- The operation of Model/ValueAlloc.lean for one of Model/AnyMem.lean, if there is one, with types `T` that do not use allocators. -/
def toValueAlloc (cfg : Cfg) (enc : Nat × Nat → Nat) (V : Vals) (T : Nat → ValueAlloc.Ty) : Op → Option ValueAlloc.Op
  | .allocCtor a _ al => some (.emptyCtor a al)
  | .valueCtor a _ al t arg _ => some (.valueCtor a al (T t) (enc (t, arg.value V)))
  | .forceCtor a _ t arg _ => some (.valueCtor a cfg.defaultAlloc (T t) (enc (t, arg.value V)))
  | .copyCtor a _ o => some (.copyCtor a o)
  | .moveCtor a o => some (.moveCtor a o)
  | .transMoveCtor a _ o => some (.transCtor a o)
  | .dtor a => some (.destruct a)
  | .copyAssign a o _ => some (.copyAssign a o)
  | .moveAssign a o => some (.moveAssign a o)
  | .emplace a t arg _ => some (.emplace a (T t) (enc (t, arg.value V)))
  | .reset a | .destroyValue a | .replaceWithBytes a _ => some (.reset a)
  | _ => none

private theorem allocs_any (enc : Nat × Nat → Nat) (w : World) (a : Nat) :
    (allocs enc w).any a = match vals w a, metas w a with
      | some v, some m => some ⟨m.2, v.map fun x => ⟨enc x, none⟩⟩
      | _, _ => none := by
  unfold allocs vals metas
  cases h : w.anys a <;> simp [h]

private theorem dead_any (enc : Nat × Nat → Nat) {w : World} {a : Nat} (h : snap w a = none) :
    vals w a = none ∧ metas w a = none ∧ (allocs enc w).any a = none := by
  unfold snap at h
  have := Option.map_eq_none_iff.1 h
  refine ⟨?_, ?_, ?_⟩
  · unfold vals; rw [this]; rfl
  · unfold metas; rw [this]; rfl
  · unfold allocs; simp [this]

private theorem live_any (enc : Nat × Nat → Nat) {w : World} {a : Nat} {s : Snap} (h : snap w a = some s) :
    ∃ v, vals w a = some v ∧ metas w a = some (s.ms, s.al) ∧ (allocs enc w).any a = some ⟨s.al, v.map fun x => ⟨enc x, none⟩⟩ := by
  unfold snap at h
  obtain ⟨x, hx, rfl⟩ := Option.map_eq_some_iff.1 h
  refine ⟨view w a, ?_, ?_, ?_⟩
  · unfold vals; rw [hx]; rfl
  · unfold metas; rw [hx]; rfl
  · unfold allocs; simp [hx]

/-- For types that do not use allocators, and allocators that may differ, Model/ValueAlloc.lean has the effect of Model/AnyMem.lean on contents and allocators. -/
theorem valueAlloc_agrees (C : CfgOk cfg) {w w' : World} {op : Op} (h : Reachable cfg w) (L : Legal cfg w op)
    (he : exec cfg op w = .ok () w') (hal : cfg.alwaysEq = false) (enc : Nat × Nat → Nat) (constructs : Bool) {T : Nat → ValueAlloc.Ty}
    (hT : ∀ t, (T t).aware = false) {p : ValueAlloc.Op} (hp : toValueAlloc cfg enc (vals w) T op = some p) :
    ValueAlloc.step (allocCfg cfg constructs) none (allocs enc w) p = .ok (allocs enc w') := by
  have hv := C04_values_step C h L he
  have hm := C19_allocators C h L he
  have hw' : allocs enc w' = ⟨(allocs enc w').any, fun _ => false⟩ := rfl
  have hu : ∀ v, (allocs enc w).usable (Option.map (fun x => (⟨enc x, none⟩ : ValueAlloc.Val)) v) = true := by
    intro v; cases v <;> rfl
  have hd : ∀ r, (allocs enc w).dead r = false := fun _ => rfl
  have hany := allocs_any enc w'
  have key : ∀ (f : Nat → Option ValueAlloc.AnySt), (∀ b, f b = (allocs enc w').any b) →
      (⟨f, fun _ => false⟩ : ValueAlloc.W) = allocs enc w' := by
    intro f hf; rw [hw']; congr 1; funext b; exact hf b
  cases op <;> simp only [toValueAlloc, Option.some.injEq, reduceCtorEq] at hp <;> subst hp
  case allocCtor a ms al =>
    obtain ⟨n1, n2, n3⟩ := dead_any enc L.1
    simp only [ValueAlloc.step, ValueAlloc.emptyCtor, n3, ValueAlloc.Res.ok.injEq]
    apply key
    intro b
    rw [hany, hv, hm]
    by_cases hb : b = a <;> simp [specStep, specMeta, upd, hb, allocs_any]
  case valueCtor a ms al t arg n =>
    obtain ⟨n1, n2, n3⟩ := dead_any enc L.1
    simp only [ValueAlloc.step, ValueAlloc.valueCtor, n3, ValueAlloc.construct, hd, Bool.false_eq_true, if_false, reduceCtorEq, false_and,
      ValueAlloc.Res.ok.injEq]
    apply key
    intro b
    rw [hany, hv, hm]
    by_cases hb : b = a <;> simp [specStep, specMeta, upd, hb, allocs_any, ValueAlloc.made, hT]
  case forceCtor a ms t arg n =>
    obtain ⟨n1, n2, n3⟩ := dead_any enc L.1
    simp only [ValueAlloc.step, ValueAlloc.valueCtor, n3, ValueAlloc.construct, hd, Bool.false_eq_true, if_false, reduceCtorEq, false_and,
      ValueAlloc.Res.ok.injEq]
    apply key
    intro b
    rw [hany, hv, hm]
    by_cases hb : b = a <;> simp [specStep, specMeta, upd, hb, allocs_any, ValueAlloc.made, hT]
  case copyCtor a ms o =>
    obtain ⟨hn, -, t, ho, -⟩ := L
    obtain ⟨n1, n2, n3⟩ := dead_any enc hn
    obtain ⟨v, m1, m2, m3⟩ := live_any enc ho
    have hc : (Option.map (fun x => (⟨enc x, none⟩ : ValueAlloc.Val)) v).map (ValueAlloc.copied (allocCfg cfg constructs)) =
        v.map fun x => ⟨enc x, none⟩ := by cases v <;> rfl
    simp only [ValueAlloc.step, ValueAlloc.copyCtor, n3, m3, hu, hc, if_true, Option.isSome_none, Bool.false_and, Bool.false_eq_true, if_false,
      ValueAlloc.Res.ok.injEq]
    apply key
    intro b
    rw [hany, hv, hm]
    by_cases hb : b = a <;> simp [specStep, specMeta, upd, hb, allocs_any, m1, m2, allocCfg]
  case moveCtor a o =>
    obtain ⟨hn, t, ho, -⟩ := L
    obtain ⟨n1, n2, n3⟩ := dead_any enc hn
    obtain ⟨v, m1, m2, m3⟩ := live_any enc ho
    have hne : o ≠ a := by rintro rfl; rw [hn] at ho; cases ho
    simp only [ValueAlloc.step, ValueAlloc.moveCtor, n3, m3, hu, if_true, ValueAlloc.Res.ok.injEq]
    apply key
    intro b
    rw [hany, hv, hm]
    by_cases hb : b = a
    · simp [specStep, specMeta, upd, hb, m1, m2]
    · by_cases hbo : b = o <;> simp [specStep, specMeta, upd, hb, hbo, hne, m2, ValueAlloc.W.set, allocs_any]
  case transMoveCtor a ms o =>
    obtain ⟨hn, -, t, ho, -⟩ := L
    obtain ⟨n1, n2, n3⟩ := dead_any enc hn
    obtain ⟨v, m1, m2, m3⟩ := live_any enc ho
    have hne : o ≠ a := by rintro rfl; rw [hn] at ho; cases ho
    simp only [ValueAlloc.step, ValueAlloc.transCtor, n3, m3, hu, if_true, ValueAlloc.Res.ok.injEq]
    apply key
    intro b
    rw [hany, hv, hm]
    by_cases hb : b = a
    · simp [specStep, specMeta, upd, hb, m1, allocCfg]
    · by_cases hbo : b = o <;> simp [specStep, specMeta, upd, hb, hbo, hne, m2, ValueAlloc.W.set, allocs_any]
  case dtor a =>
    obtain ⟨s, hs⟩ := Option.isSome_iff_exists.1 L
    obtain ⟨v, m1, m2, m3⟩ := live_any enc hs
    simp only [ValueAlloc.step, ValueAlloc.destruct, m3, hu, if_true, ValueAlloc.Res.ok.injEq]
    apply key
    intro b
    rw [hany, hv, hm]
    by_cases hb : b = a <;> simp [specStep, specMeta, upd, hb, allocs_any]
  case copyAssign a o tmp =>
    obtain ⟨-, s, hs, t, ho, -⟩ := L
    obtain ⟨v, m1, m2, m3⟩ := live_any enc hs
    obtain ⟨u, k1, k2, k3⟩ := live_any enc ho
    have hc : (Option.map (fun x => (⟨enc x, none⟩ : ValueAlloc.Val)) u).map (ValueAlloc.copied (allocCfg cfg constructs)) =
        u.map fun x => ⟨enc x, none⟩ := by cases u <;> rfl
    simp only [ValueAlloc.step, ValueAlloc.copyAssign, m3, k3, hu, hc, if_true, reduceCtorEq, false_and, if_false, Bool.and_self]
    have fin : ∀ al, al = moveAssignAl cfg (propagatedAl cfg s.al t.al) (cfg.soccc t.al) →
        (allocs enc w).set a (some ⟨al, u.map fun x => ⟨enc x, none⟩⟩) = allocs enc w' := by
      rintro al rfl
      apply key
      intro b
      rw [hany, hv, hm]
      by_cases hb : b = a <;> simp [specStep, specMeta, upd, hb, allocs_any, m2, k1, k2]
    by_cases hpm : cfg.pocma = true
    · rw [if_pos (show (allocCfg cfg constructs).pocma = true from hpm), fin _ (by simp [moveAssignAl, hal, hpm, allocCfg])]
    · rw [if_neg (show ¬ (allocCfg cfg constructs).pocma = true from hpm),
        fin _ (by cases hq : cfg.pocca <;> simp [moveAssignAl, hal, hpm, propagatedAl, allocCfg, hq])]
  case moveAssign a o =>
    obtain ⟨s, hs, t, ho, -⟩ := L
    obtain ⟨v, m1, m2, m3⟩ := live_any enc hs
    obtain ⟨u, k1, k2, k3⟩ := live_any enc ho
    simp only [ValueAlloc.step, ValueAlloc.moveAssign, m3, k3, hu, if_true, Bool.and_self, Option.isSome_none, Bool.false_and, Bool.false_eq_true,
      if_false]
    by_cases hao : a = o
    · subst hao
      rw [if_pos rfl]
      congr 1
      refine key (allocs enc w).any fun b => ?_
      rw [hany, hv, hm]
      by_cases hb : b = a
      · rw [hs] at ho; cases ho
        subst hb
        simp [specStep, specMeta, upd, moveAssignAl, m1, m2, m3]
      · simp [specStep, specMeta, upd, hb, allocs_any]
    · rw [if_neg hao]
      have hoa : o ≠ a := fun h => hao h.symm
      have fin : ∀ al, al = moveAssignAl cfg s.al t.al →
          ((allocs enc w).set o (some ⟨t.al, none⟩)).set a (some ⟨al, u.map fun x => ⟨enc x, none⟩⟩) = allocs enc w' := by
        rintro al rfl
        apply key
        intro b
        rw [hany, hv, hm]
        by_cases hb : b = a
        · simp [specStep, specMeta, upd, hb, hao, m2, k1, k2]
        · by_cases hbo : b = o <;> simp [specStep, specMeta, upd, hb, hbo, hoa, hao, k2, allocs_any, ValueAlloc.W.set]
      by_cases hpm : cfg.pocma = true
      · rw [if_pos (show (allocCfg cfg constructs).pocma = true from hpm), fin _ (by simp [moveAssignAl, hal, hpm])]
      · rw [if_neg (show ¬ (allocCfg cfg constructs).pocma = true from hpm), fin _ (by simp [moveAssignAl, hal, hpm])]
  case emplace a t arg n =>
    obtain ⟨s, hs⟩ := Option.isSome_iff_exists.1 L.1
    obtain ⟨v, m1, m2, m3⟩ := live_any enc hs
    simp only [ValueAlloc.step, ValueAlloc.emplace, m3, hu, if_true, ValueAlloc.construct, reduceCtorEq, false_and, if_false]
    rw [if_neg (by simp [ValueAlloc.W.set, allocs])]
    congr 1
    apply key
    intro b
    rw [hany, hv, hm]
    by_cases hb : b = a <;> simp [specStep, specMeta, upd, hb, allocs_any, m2, ValueAlloc.made, hT]
  case reset a =>
    obtain ⟨s, hs⟩ := Option.isSome_iff_exists.1 L
    obtain ⟨v, m1, m2, m3⟩ := live_any enc hs
    simp only [ValueAlloc.step, ValueAlloc.reset, m3, hu, if_true, ValueAlloc.Res.ok.injEq]
    apply key
    intro b
    rw [hany, hv, hm]
    by_cases hb : b = a <;> simp [specStep, specMeta, upd, hb, allocs_any, m2]
  case destroyValue a =>
    obtain ⟨s, hs⟩ := Option.isSome_iff_exists.1 L
    obtain ⟨v, m1, m2, m3⟩ := live_any enc hs
    simp only [ValueAlloc.step, ValueAlloc.reset, m3, hu, if_true, ValueAlloc.Res.ok.injEq]
    apply key
    intro b
    rw [hany, hv, hm]
    by_cases hb : b = a <;> simp [specStep, specMeta, upd, hb, allocs_any, m2]
  case replaceWithBytes a n =>
    obtain ⟨s, hs⟩ := Option.isSome_iff_exists.1 L
    obtain ⟨v, m1, m2, m3⟩ := live_any enc hs
    simp only [ValueAlloc.step, ValueAlloc.reset, m3, hu, if_true, ValueAlloc.Res.ok.injEq]
    apply key
    intro b
    rw [hany, hv, hm]
    by_cases hb : b = a <;> simp [specStep, specMeta, upd, hb, allocs_any, m2]

/-! ### Visits of swarms (C120) -/

/-- A swarm of numbers, as in Model/SwarmReentry.lean. -/
def conts {n : Nat} (sw : Swarm.Swarm (fun _ : Fin n => Nat)) : Nat → List Nat := fun i => if h : i < n then sw ⟨i, h⟩ else []

/-- The visitor that replaces each value of type `i` by `g i` of it and returns nothing. -/
def replacer {n : Nat} (g : Nat → Nat → Nat) : Swarm.Visitor (fun _ : Fin n => Nat) Unit Unit := fun i s x => (s, g i x, .void)

private theorem forEach_replacer {n : Nat} (g : Nat → Nat → Nat) (out : Unit → Unit → Unit × Bool) (i : Fin n) (xs : List Nat) (s : Unit) :
    Swarm.forEach (replacer g) out i xs s = ((s, false), xs.map (g i)) := by
  induction xs with
  | nil => rfl
  | cons x xs ih => simp [Swarm.forEach, Swarm.applyVisitor, replacer] at ih ⊢; simp [ih]

private theorem conts_spawned {n : Nat} (g : Nat → Nat → Nat) (sw : Swarm.Swarm (fun _ : Fin n => Nat)) (i : Fin n) :
    SwarmRe.spawned (fun i x => (g i x, [])) (conts sw) i = conts (Swarm.setS sw i ((sw i).map (g i))) := by
  funext j
  have h0 : ∀ l : List Nat, l.flatMap (fun _ => ([] : List (Nat × Nat))) = [] := fun l => by induction l <;> simp_all
  by_cases hj : j = i
  · subst hj
    simp [SwarmRe.spawned, conts, Swarm.setS]
  · have : ∀ h : j < n, (⟨j, h⟩ : Fin n) ≠ i := fun h e => hj (by rw [← e])
    by_cases hn : j < n <;> simp [SwarmRe.spawned, conts, Swarm.setS, hj, hn, h0, SwarmRe.ofType, this]

/-- A visit of Model/SwarmReentry.lean, with its iterators and steps, ends with the swarm that `visit` of Model/Swarm.lean gives, for all containers and
capacities. -/
theorem swarmReentry_agrees {n : Nat} (C : SwarmRe.Cfg) (g : Nat → Nat → Nat) (v : Nat) (js : List (Fin n))
    (hb : ∀ i ∈ js, C.body v i = .get fun x => .set (g i x) .ret) (sw : Swarm.Swarm (fun _ : Fin n => Nat)) (cap : Nat → Nat) :
    ∃ m s, SwarmRe.runN C m (SwarmRe.start (conts sw) cap (.visit v (js.map (·.val)) fun _ => .ret)) = .fin false s ∧
      s.cont = conts (Swarm.visitIgnore (replacer g) js sw ()).2 ∧ (Swarm.visitIgnore (replacer g) js sw ()).1 = ((), false) := by
  obtain ⟨m, s, h1, h2, -⟩ := SwarmRe.C120_spawn (C := C) (cont := conts sw) (cap := cap) (fun i x => (g i x, [])) v (js.map (·.val))
    (by
      intro i hi
      obtain ⟨j, hj, rfl⟩ := List.mem_map.1 hi
      rw [hb j hj]; rfl)
    (by intro i _ x y hy; cases hy)
  refine ⟨m, s, h1, ?_, ?_⟩
  · rw [h2]
    clear h1 h2 hb
    induction js generalizing sw with
    | nil => rfl
    | cons j js ih =>
      have := ih (Swarm.setS sw j ((sw j).map (g j)))
      simp only [SwarmRe.spawnedAll, List.map_cons, List.foldl_cons, conts_spawned] at this ⊢
      rw [this]
      simp only [Swarm.visitIgnore, Swarm.visit, forEach_replacer, Bool.false_eq_true, if_false]
  · clear h1 h2 hb
    induction js generalizing sw with
    | nil => rfl
    | cons j js ih =>
      have := ih (Swarm.setS sw j ((sw j).map (g j)))
      simp only [Swarm.visitIgnore, Swarm.visit, forEach_replacer, Bool.false_eq_true, if_false] at this ⊢
      exact this

/-- A value without anys. -/
def leaf (p : Nat × Nat) : Nested.Val := .mk p.1 p.2 []

/-- Comparison and hash of values without anys, in Model/NestedCmp.lean, are those of Model/Compare.lean (C39, C40, C41), also where they are undefined. -/
theorem nestedCmp_agrees (F : Nested.Fns) (c d : Option (Nat × Nat)) :
    let G : Poly.CmpFns := ⟨F.eq, F.cmp, fun t x => F.hash t x []⟩
    Nested.anyEq F (c.map leaf) (d.map leaf) = Poly.specEq G c d ∧ Nested.anyHash F (c.map leaf) = Poly.specHash G c ∧
    Nested.anyCmp F (c.map leaf) (d.map leaf) = if c ≠ none ∧ d = none then none else some (Poly.specCmp G c d) := by
  rcases c with _ | ⟨t, x⟩ <;> rcases d with _ | ⟨u, y⟩ <;>
    simp [Nested.anyEq, Nested.anyHash, Nested.anyCmp, Poly.specEq, Poly.specHash, Poly.specCmp, leaf, Nested.valEq, Nested.valHash, Nested.valCmp,
      Nested.elemsEq, Nested.elemsHash, Nested.elemsCmp]
  by_cases h : t = u
  · subst h
    simp only [decide_true, Bool.true_and, if_true, true_and, not_true_eq_false, if_false]
    cases F.cmp t x y <;> rfl
  · simp [h]

end AnyAny.Check
