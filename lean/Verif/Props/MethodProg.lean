import Verif.Lemmas.MethodProg2
/-
C119: methods may use all anys of the program, also the one they were called on; pointers and references denote
objects. The ideal program (Spec/MethodProg.lean) does not know addresses.
-/
namespace AnyAny.Mem.MProg
open AnyAny.Mem AnyAny.TypeList
variable {cfg : Cfg} {body : Nat → Nat → Nat → Prog} {w : World} {p : Prog}

/-- C119: a careful program has no undefined behaviour, however deep its methods call each other and whatever they do
with the anys they were called on, also if it never ends. -/
theorem C119_safe (C : CfgOk cfg) (h : Reachable cfg w) (hc : Careful cfg body (.start p w)) (n : Nat) :
    runN cfg body n (.start p w) ≠ .ub := by
  intro e
  have := runN_good C n (sim_start (h.wf C) p) hc
  rw [e] at this
  exact this

/-- C119: whatever point the program comes to, the ideal program comes to the same point with the same world, and all pointers
and references of running and waiting methods and in variables are at the address of their object, if that lives. -/
theorem C119_refines (C : CfgOk cfg) (h : Reachable cfg w) (hc : Careful cfg body (.start p w)) {n : Nat} {s : State Typed PRef}
    (hr : runN cfg body n (.start p w) = .next s) : ∃ i, ISteps cfg body n (.start p w) i ∧ Same s i := by
  have := runN_good C n (sim_start (h.wf C) p) hc
  rw [hr] at this
  obtain ⟨i, h1, h2⟩ := this
  exact ⟨i, h1, h2.same⟩

/-- C119, the other direction: the program does everything that the ideal program does. -/
theorem C119_complete (C : CfgOk cfg) (h : Reachable cfg w) (hc : Careful cfg body (.start p w)) {n : Nat} {i : Ideal}
    (hi : ISteps cfg body n (.start p w) i) : ∃ s, runN cfg body n (.start p w) = .next s ∧ Same s i := by
  obtain ⟨s, h1, h2⟩ := runN_follows C hi (sim_start (h.wf C) p) hc
  exact ⟨s, h1, h2.same⟩

/-- C119: when the program has ended (also with an exception), every object that was ever constructed has been destroyed
once or is contained in just one any and has not been destroyed; every block of memory has been freed once or belongs to
an any. -/
theorem C119_accounting (C : CfgOk cfg) (h : Reachable cfg w) (hc : Careful cfg body (.start p w)) {n : Nat} {b : Bool} {w' : World}
    (hr : runN cfg body n (.start p w) = .fin b w') :
    (∀ id, id < w'.nextObj → (cfg.ty (w'.born id)).trivDestr = false →
      (w'.dtors id = 1 ∧ ¬ Lives w' id) ∨ (w'.dtors id = 0 ∧ ∃ a o, Holds w' a id o ∧ ∀ a' o', Holds w' a' id o' → a' = a)) ∧
    (∀ k, k < w'.nextBlk → (w'.frees k = 1 ∧ ∀ a, addrOf w' a ≠ some (.blk k)) ∨
      (w'.frees k = 0 ∧ ∃ a, addrOf w' a = some (.blk k) ∧ ∀ a', addrOf w' a' = some (.blk k) → a' = a)) := by
  have := runN_good C n (sim_start (h.wf C) p) hc
  rw [hr] at this
  obtain ⟨_, _, _, _, W, _⟩ := this
  refine ⟨fun id hid ht => ?_, fun k hk => ?_⟩
  · rcases W.destroyed id hid ht with d | ⟨d, a, o, ho, hi⟩
    · refine Or.inl ⟨d, fun ⟨a, o, ho, hi⟩ => ?_⟩
      obtain ⟨_, _, _, _, _, _, _, _, _, hz, _⟩ := content_full W ho
      rw [hi, d] at hz; cases hz
    · exact Or.inr ⟨d, a, o, ⟨ho, hi⟩, fun a' o' hh => (Holds.inj W hh ⟨ho, hi⟩).1⟩
  · have hf := W.freed k hk
    cases hb : w'.blks k with
    | none =>
      simp [hb] at hf
      refine Or.inl ⟨hf, fun a ha => ?_⟩
      cases hs : w'.anys a with
      | none => simp [addrOf, hs] at ha
      | some s =>
        simp only [addrOf, hs, Option.map_some, Option.some.injEq] at ha
        rcases (W.any a s hs).shape with e | ⟨b, q, e1, e2, _⟩
        · rw [ha] at e; cases e
        · rw [ha] at e1; cases e1; rw [hb] at e2; cases e2
    | some q =>
      simp [hb] at hf
      obtain ⟨a, s, h1, h2⟩ := W.owned k q hb
      refine Or.inr ⟨hf, a, by simp [addrOf, h1, h2], fun a' ha' => ?_⟩
      cases hs : w'.anys a' with
      | none => simp [addrOf, hs] at ha'
      | some s' =>
        simp only [addrOf, hs, Option.map_some, Option.some.injEq] at ha'
        exact W.blkInj a' s' a s k hs h1 ha' h2

/-- C119: `std::terminate` is called only by an operation for which that is documented (`mayTerminate`). -/
theorem C119_terminate (C : CfgOk cfg) (h : Reachable cfg w) (hc : Careful cfg body (.start p w)) {n : Nat}
    (hr : runN cfg body n (.start p w) = .term) :
    ∃ m i o k, m ≤ n ∧ ISteps cfg body m (.start p w) i ∧ i.prog = .op o k ∧ mayTerminate cfg i.w o := by
  have := runN_good C n (sim_start (h.wf C) p) hc
  rw [hr] at this
  exact this

/-- C119: a method that writes to its object changes the value of the any that contains the object now, and nothing else. -/
theorem C119_write (C : CfgOk cfg) (h : Reachable cfg w) (hc : Careful cfg body (.start p w)) {n : Nat} {i i' : Ideal}
    (hi : ISteps cfg body n (.start p w) i) (hs : IStep cfg body i i') {f : Nat → Nat} {k : Nat → Prog} (hp : i.prog = .self f k) :
    ∃ id a o, i.me = some id ∧ Holds i.w a id o ∧ i'.prog = k o.val ∧ content i'.w a = some { o with val := f o.val } ∧
      (∀ c, c ≠ a → content i'.w c = content i.w c) ∧ (∀ c, addrOf i'.w c = addrOf i.w c) ∧
      ∀ c, methodsOf i'.w c = methodsOf i.w c := by
  have W := hi.wf C (h.wf C) hc
  cases hs with
  | self hp' hm hh hw =>
    rw [hp] at hp'; cases hp'
    obtain ⟨q, h1, h2⟩ := hw
    obtain ⟨_, w2, k1, _, _, k4⟩ := write_spec W (f _) hh.1 h1
    rw [h2] at k1; cases k1
    exact ⟨_, _, _, hm, hh, rfl, k4⟩
  | _ => simp_all

/-- C119: an operation that succeeds ends the life of the object of the running method (or of any other) just if `fate`
says so. -/
theorem C119_lives (C : CfgOk cfg) (h : Reachable cfg w) (hc : Careful cfg body (.start p w)) {n : Nat} {i : Ideal}
    (hi : ISteps cfg body n (.start p w) i) {o : Op} {k : Bool → Prog} (hp : i.prog = .op o k) {w' : World}
    (he : exec cfg o i.w = .ok () w') {a id : Nat} {ob : Obj} (hh : Holds i.w a id ob) :
    Lives w' id ↔ (fate cfg i.w a o).isSome := by
  have W := hi.wf C (h.wf C) hc
  have L := hc _ _ hi
  simp only [Ok, hp] at L
  obtain ⟨σ', R', H⟩ := heir_step C W L he
  constructor
  · rintro ⟨c, o', h1, h2⟩
    have := H.home W R' hh.1 h1 (by rw [h2, hh.2])
    rw [this]; rfl
  · intro hf
    obtain ⟨b, hb⟩ := Option.isSome_iff_exists.1 hf
    obtain ⟨s, h1, _⟩ := snap_of_content hh.1
    obtain ⟨o', g1, g2, _⟩ := H.contains W R' hh.1 (addr_of_snap W h1) hb
    exact ⟨b, o', g1, by rw [g2, hh.2]⟩

/-- C119: an operation that throws ends the life of no object but those of `mayLose`. -/
theorem C119_lives_exception (C : CfgOk cfg) (h : Reachable cfg w) (hc : Careful cfg body (.start p w)) {n : Nat} {i : Ideal}
    (hi : ISteps cfg body n (.start p w) i) {o : Op} {k : Bool → Prog} (hp : i.prog = .op o k) {w' : World}
    (he : exec cfg o i.w = .exn w') {a id : Nat} {ob : Obj} (hh : Holds i.w a id ob) (hl : ¬ mayLose cfg i.w o a) :
    ∃ ob', Holds w' a id ob' := by
  have W := hi.wf C (h.wf C) hc
  have L := hc _ _ hi
  simp only [Ok, hp] at L
  obtain ⟨σ', f, R', H, _, hk⟩ := heir_exn C W L he
  obtain ⟨s, h1, _⟩ := snap_of_content hh.1
  obtain ⟨o', g1, g2, _⟩ := H.contains W R' hh.1 (addr_of_snap W h1) (hk a fun x => absurd x hl)
  exact ⟨o', g1, by rw [g2, hh.2]⟩

/-! ### Examples -/

/-- Methods of the examples. Method 0: type 1 (small) is a state which replaces itself by the state 2 and does not look
back; type 2 (in memory) moves itself into the any 1 and goes on with its own object, then calls the method 1 of the any
it is in now. Method 1 adds the argument to the value; for type 3 it throws. Method 2 destroys the any and uses the object. -/
def exBody : Nat → Nat → Nat → Prog
  | 0, 1, x => .op (.emplace 0 2 (.lit x) false) fun _ => .ret
  | 0, 2, x => .op (.moveCtor 1 0) fun _ => .self (· + 1) fun _ => .call 1 1 x fun _ => .self (· * 2) fun _ => .ret
  | 1, 3, _ => .raise
  | 1, _, x => .self (· + x) fun _ => .ret
  | 2, _, _ => .op (.reset 0) fun _ => .self id fun _ => .ret
  | _, _, _ => .ret

/-- An any with a value of type 1 calls the method 0 twice; a `poly_ref` and a pointer to the state 2 are kept and used after it
has moved to the any 1. -/
def exProg : Prog :=
  .op (.valueCtor 0 exMs 7 1 (.lit 5) false) fun _ =>
  .call 0 0 6 fun _ =>
  .take 3 0 2 fun _ =>
  .bind 4 0 [.user 1] <|
  .call 0 0 10 fun _ =>
  .callRef 4 1 100 fun _ =>
  .use 3 (· + 1000) fun _ => .ret

def Next.vals : Next Typed PRef → Option (Bool × List (Option (Nat × Nat)))
  | .fin b w => some (b, [view w 0, view w 1])
  | _ => none

def Next.isUb {H R : Type} : Next H R → Bool
  | .ub => true
  | _ => false

-- 6 → 7 → 17 → 34 → 134 → 1134
example : (runN exCfg exBody 40 (.start exProg World.init)).vals = some (false, [none, some (2, 1134)]) := by decide +kernel

example : Careful exCfg exBody (.start exProg World.init) :=
  (check_ends [0, 1] 40 _ (by decide +kernel)).careful exCfg_ok (Reachable.wf exCfg_ok .init)

/-- A method of the value of the any 1 that replaces the value of the any 0, catches the exception of the constructor and goes
on with its own object (`+ 1` if there was an exception). -/
def exCatch : Nat → Nat → Nat → Prog := fun _ _ x =>
  .op (.emplace 0 1 (.lit x) false) fun b => .self (· + if b then 1 else 2) fun _ => .raise

def exCatchProg : Prog :=
  .op (.valueCtor 0 exMs 7 1 (.lit 5) false) fun _ => .op (.valueCtor 1 exMs 7 2 (.lit 6) false) fun _ =>
  .call 1 0 9 fun b => if b then .use 0 id fun _ => .ret else .ret

-- the exception of the method arrives at the program, which uses a pointer it never made
example : (runN (exCfgF 3) exCatch 40 (.start exCatchProg World.init)).isUb = true := by decide +kernel

def exCatchProg' : Prog :=
  .op (.valueCtor 0 exMs 7 1 (.lit 5) false) fun _ => .op (.valueCtor 1 exMs 7 2 (.lit 6) false) fun _ =>
  .call 1 0 9 fun b => if b then .raise else .ret

example : (runN (exCfgF 3) exCatch 40 (.start exCatchProg' World.init)).vals = some (true, [none, some (2, 7)]) ∧
    (runN exCfg exCatch 40 (.start exCatchProg' World.init)).vals = some (true, [some (1, 9), some (2, 8)]) := by decide +kernel

example : Careful (exCfgF 3) exCatch (.start exCatchProg' World.init) :=
  (check_ends [0, 1] 40 _ (by decide +kernel)).careful (exCfgF_ok 3) (Reachable.wf (exCfgF_ok 3) .init)

/-- C119: the rule is needed: a method that destroys the object it was called on and then uses it has undefined behaviour. -/
theorem C119_dangling_fails : ∃ (q : Prog) (n : Nat), runN exCfg exBody n (.start q World.init) = .ub := by
  refine ⟨.op (.valueCtor 0 exMs 7 1 (.lit 5) false) fun _ => .call 0 2 0 fun _ => .ret, 10, ?_⟩
  have : (runN exCfg exBody 10 (.start (.op (.valueCtor 0 exMs 7 1 (.lit 5) false) fun _ => .call 0 2 0 fun _ => .ret) World.init)).isUb = true := by
    decide +kernel
  revert this
  cases runN exCfg exBody 10 _ <;> simp [Next.isUb]

end AnyAny.Mem.MProg
