import Verif.Spec.DpvFine
/-
Operations on containers use only these containers.
-/
namespace AnyAny.Dpv

variable {n : Nat} {V : Fin n → Type}

/-- Two outcomes from `v` and `v'` are the same on the containers `A`, and change only containers `W`. -/
def RelR {α : Type} (A W : Nat → Prop) (v v' : Nat → Option (Parts V)) : Res V α → Res V α → Prop
  | .ok a w, .ok a' w' => a = a' ∧ w.tick = w'.tick ∧ (∀ d, A d → w.vecs d = w'.vecs d) ∧ (∀ d, ¬ W d → w.vecs d = v d ∧ w'.vecs d = v' d)
  | .exn w, .exn w' => w.tick = w'.tick ∧ (∀ d, A d → w.vecs d = w'.vecs d) ∧ (∀ d, ¬ W d → w.vecs d = v d ∧ w'.vecs d = v' d)
  | .ub, .ub => True
  | _, _ => False

/-- `m` uses only the containers `A` and changes only `W`. -/
def Local {α : Type} (A W : Nat → Prop) (m : M V α) : Prop :=
  ∀ v v' t, (∀ d, A d → v d = v' d) → RelR A W v v' (m ⟨v, t⟩) (m ⟨v', t⟩)

variable {A W : Nat → Prop}

theorem Local.pure {α : Type} (a : α) : Local (V := V) A W (Pure.pure a : M V α) := fun _ _ _ h => ⟨rfl, rfl, h, fun _ _ => ⟨rfl, rfl⟩⟩

theorem Local.ub {α : Type} : Local (V := V) A W (Dpv.ub : M V α) := fun _ _ _ _ => trivial

theorem Local.bind {α β : Type} {m : M V α} {f : α → M V β} (hm : Local A W m) (hf : ∀ a, Local A W (f a)) : Local A W (m >>= f) := by
  intro v v' t h
  have h1 := hm v v' t h
  show RelR A W v v' (M.bind m f ⟨v, t⟩) (M.bind m f ⟨v', t⟩)
  unfold M.bind
  cases e : m ⟨v, t⟩ with
  | ok a w =>
    cases e' : m ⟨v', t⟩ with
    | ok a' w' =>
      rw [e, e'] at h1
      obtain ⟨rfl, ht, ha, hu⟩ := h1
      have h2 := hf a w.vecs w'.vecs w.tick ha
      have ew : (⟨w.vecs, w.tick⟩ : World V) = w := rfl
      have ew' : (⟨w'.vecs, w.tick⟩ : World V) = w' := by rw [ht]
      rw [ew, ew'] at h2
      show RelR A W v v' (f a w) (f a w')
      revert h2
      cases f a w <;> cases f a w' <;> intro h2
      · exact ⟨h2.1, h2.2.1, h2.2.2.1, fun d hd => ⟨(h2.2.2.2 d hd).1.trans (hu d hd).1, (h2.2.2.2 d hd).2.trans (hu d hd).2⟩⟩
      · exact h2
      · exact h2
      · exact h2
      · exact ⟨h2.1, h2.2.1, fun d hd => ⟨(h2.2.2 d hd).1.trans (hu d hd).1, (h2.2.2 d hd).2.trans (hu d hd).2⟩⟩
      · exact h2
      · exact h2
      · exact h2
      · trivial
    | exn w' => rw [e, e'] at h1; exact h1.elim
    | ub => rw [e, e'] at h1; exact h1.elim
  | exn w =>
    cases e' : m ⟨v', t⟩ with
    | ok a' w' => rw [e, e'] at h1; exact h1.elim
    | exn w' => rw [e, e'] at h1; exact h1
    | ub => rw [e, e'] at h1; exact h1.elim
  | ub =>
    cases e' : m ⟨v', t⟩ with
    | ok a' w' => rw [e, e'] at h1; exact h1.elim
    | exn w' => rw [e, e'] at h1; exact h1.elim
    | ub => trivial

theorem Local.ite {α : Type} {c : Prop} [Decidable c] {m m' : M V α} (h : Local A W m) (h' : Local A W m') : Local A W (if c then m else m') := by
  split
  · exact h
  · exact h'

theorem Local.get {d : Nat} (h : A d) : Local (V := V) A W (Dpv.get d) := by
  intro v v' t ha
  simp only [Dpv.get, ← ha d h]
  cases v d with
  | none => exact trivial
  | some p => exact ⟨rfl, rfl, ha, fun _ _ => ⟨rfl, rfl⟩⟩

theorem upd_agree {v v' : Nat → Option (Parts V)} (ha : ∀ d, A d → v d = v' d) (d : Nat) (x : Option (Parts V)) :
    ∀ e, A e → upd v d x e = upd v' d x e := by
  intro e he
  unfold upd
  split
  · rfl
  · exact ha e he

theorem upd_out {v : Nat → Option (Parts V)} {d : Nat} {x : Option (Parts V)} {e : Nat} (hd : W d) (he : ¬ W e) : upd v d x e = v e := by
  unfold upd
  rw [if_neg (fun h : e = d => he (by rw [h]; exact hd))]

theorem Local.put {d : Nat} (h : W d) (p : Parts V) : Local A W (Dpv.put d p) := fun _ _ _ ha =>
  ⟨rfl, rfl, upd_agree ha d _, fun _ he => ⟨upd_out h he, upd_out h he⟩⟩

theorem Local.apply {env : Env V} {d : Nat} (h : A d) (hw : W d) {f left} : Local A W (Dpv.apply env d f left) := by
  intro v v' t ha
  simp only [Dpv.apply, ← ha d h]
  cases v d with
  | none => exact trivial
  | some p =>
    simp only
    split
    · exact ⟨rfl, upd_agree ha d _, fun _ he => ⟨upd_out hw he, upd_out hw he⟩⟩
    · exact ⟨rfl, rfl, upd_agree ha d _, fun _ he => ⟨upd_out hw he, upd_out hw he⟩⟩

theorem Local.applyNoexcept {d : Nat} (h : A d) (hw : W d) {f} : Local (V := V) A W (Dpv.applyNoexcept d f) :=
  Local.bind (Local.get h) fun _ => Local.put hw _

theorem Local.construct {env : Env V} {d : Nat} (hw : W d) {mk} : Local A W (Dpv.construct env d mk) := by
  intro v v' t ha
  simp only [Dpv.construct]
  split
  · exact ⟨rfl, ha, fun _ _ => ⟨rfl, rfl⟩⟩
  · exact ⟨rfl, rfl, upd_agree ha d _, fun _ he => ⟨upd_out hw he, upd_out hw he⟩⟩

theorem Local.defaultCtor {d : Nat} (hw : W d) : Local (V := V) A W (Dpv.defaultCtor d) := fun _ _ _ ha =>
  ⟨rfl, rfl, upd_agree ha d _, fun _ he => ⟨upd_out hw he, upd_out hw he⟩⟩

theorem Local.dtor {d : Nat} (hw : W d) : Local (V := V) A W (Dpv.dtor d) := fun _ _ _ ha =>
  ⟨rfl, rfl, upd_agree ha d _, fun _ he => ⟨upd_out hw he, upd_out hw he⟩⟩

theorem Local.moveCtor {d s : Nat} (h : A s) (hw : W d) (hs : W s) : Local (V := V) A W (Dpv.moveCtor d s) := by
  intro v v' t ha
  simp only [Dpv.moveCtor, ← ha s h]
  cases v s with
  | none => exact trivial
  | some p => exact ⟨rfl, rfl, upd_agree (upd_agree ha s _) d _, fun _ he =>
      ⟨(upd_out hw he).trans (upd_out hs he), (upd_out hw he).trans (upd_out hs he)⟩⟩

theorem Local.moveAssign {d s : Nat} (hd : A d) (h : A s) (hw : W d) (hs : W s) : Local (V := V) A W (Dpv.moveAssign d s) := by
  intro v v' t ha
  simp only [Dpv.moveAssign, ← ha s h, ← ha d hd]
  cases v d with
  | none => exact trivial
  | some q =>
    cases v s with
    | none => exact trivial
    | some p =>
      simp only
      split
      · exact ⟨rfl, rfl, ha, fun _ _ => ⟨rfl, rfl⟩⟩
      · exact ⟨rfl, rfl, upd_agree (upd_agree ha s _) d _, fun _ he =>
          ⟨(upd_out hw he).trans (upd_out hs he), (upd_out hw he).trans (upd_out hs he)⟩⟩

theorem Local.swap {d s : Nat} (hd : A d) (h : A s) (hw : W d) (hs : W s) : Local (V := V) A W (Dpv.swap d s) := by
  intro v v' t ha
  simp only [Dpv.swap, ← ha s h, ← ha d hd]
  cases v d with
  | none => exact trivial
  | some q =>
    cases v s with
    | none => exact trivial
    | some p => exact ⟨rfl, rfl, upd_agree (upd_agree ha d _) s _, fun _ he =>
          ⟨(upd_out hs he).trans (upd_out hw he), (upd_out hs he).trans (upd_out hw he)⟩⟩

theorem Local.size {d : Nat} (h : A d) : Local (V := V) A W (Dpv.size d) := Local.bind (Local.get h) fun _ => Local.pure _

theorem Local.iteratorAt {d i : Nat} (h : A d) : Local (V := V) A W (Dpv.iteratorAt d i) :=
  Local.bind (Local.size h) fun _ => Local.ite (Local.pure _) Local.ub

theorem Local.insertCols {env : Env V} {d i : Nat} (h : A d) (hw : W d) {xs} : Local A W (Dpv.insertCols env d i xs) :=
  Local.bind (Local.bind (Local.get h) fun _ => Local.ite (Local.pure _) Local.ub) fun _ => Local.apply h hw

theorem Local.emplace {env : Env V} {d i : Nat} {v : Rec V} (h : A d) (hw : W d) : Local A W (Dpv.emplace env d i v) :=
  Local.bind (Local.iteratorAt h) fun _ => Local.bind (Local.insertCols h hw) fun _ => Local.bind (Local.iteratorAt h) fun _ => Local.pure _

theorem Local.emplaceBack {env : Env V} {d : Nat} {v : Rec V} (h : A d) (hw : W d) : Local A W (Dpv.emplaceBack env d v) := Local.apply h hw

theorem Local.emplaceBackAll {env : Env V} {d : Nat} (h : A d) (hw : W d) (vs : List (Rec V)) : Local A W (Dpv.emplaceBackAll env d vs) := by
  induction vs with
  | nil => exact Local.pure _
  | cons v vs ih => exact Local.bind (Local.emplaceBack h hw) fun _ => ih

theorem Local.emplaceAll {env : Env V} {d : Nat} (h : A d) (hw : W d) (vs : List (Rec V)) : ∀ i, Local A W (Dpv.emplaceAll env d i vs) := by
  induction vs with
  | nil => intro i; exact Local.pure _
  | cons v vs ih => intro i; exact Local.bind (Local.emplace h hw) fun _ => ih _

theorem Local.insertRange {env : Env V} {d i : Nat} {vs : List (Rec V)} {ra : Bool} (h : A d) (hw : W d) :
    Local A W (Dpv.insertRange env d i vs ra) := by
  refine Local.bind (Local.iteratorAt h) fun _ => Local.bind (Local.size h) fun s => Local.ite ?_ ?_
  · exact Local.bind (Local.emplaceBackAll h hw vs) fun _ => Local.bind (Local.iteratorAt h) fun _ => Local.pure _
  · refine Local.bind ?_ fun _ => Local.bind ?_ fun _ => Local.bind (Local.iteratorAt h) fun _ => Local.pure _
    · unfold reserveFor
      exact Local.ite (Local.apply h hw) (Local.pure _)
    · cases vs with
      | nil => exact Local.pure _
      | cons v vs => exact Local.bind (Local.emplace h hw) fun _ => Local.emplaceAll h hw vs _

theorem Local.rangeCtor {env : Env V} {d : Nat} {vs : List (Rec V)} {ra : Bool} (h : A d) (hw : W d) : Local A W (Dpv.rangeCtor env d vs ra) := by
  intro v v' t ha
  have h1 := Local.bind (Local.defaultCtor (V := V) (A := A) (W := W) hw) (fun _ => Local.insertRange (env := env) (i := 0) (vs := vs) (ra := ra) h hw) v v' t ha
  unfold Dpv.rangeCtor
  revert h1
  generalize (do Dpv.defaultCtor d; Dpv.insertRange env d 0 vs ra : M V Nat) ⟨v, t⟩ = r
  generalize (do Dpv.defaultCtor d; Dpv.insertRange env d 0 vs ra : M V Nat) ⟨v', t⟩ = r'
  intro h1
  cases r <;> cases r' <;> first | exact h1.elim | skip
  · exact ⟨rfl, h1.2⟩
  · exact ⟨h1.1, ha, fun _ _ => ⟨rfl, rfl⟩⟩
  · trivial

theorem Local.proxyAt {d i : Nat} (h : A d) : Local (V := V) A W (Dpv.proxyAt d i) :=
  Local.bind (Local.get h) fun _ => Local.ite (Local.pure _) Local.ub

theorem Local.swapFields {d i e k : Nat} (h : A d) (h' : A e) (hw : W d) (hw' : W e) (js : List (Fin n)) :
    Local (V := V) A W (Dpv.swapFields d i e k js) := by
  induction js with
  | nil => exact Local.pure _
  | cons j js ih =>
    refine Local.bind (Local.bind (Local.get h) fun p => Local.bind (Local.get h') fun q => ?_) fun _ => ih
    split
    · exact Local.bind (Local.put hw _) fun _ => Local.bind (Local.get h') fun _ => Local.put hw' _
    · exact Local.ub

theorem Local.iterMove {env : Env V} {d i : Nat} (h : A d) (hw : W d) : Local A W (Dpv.iterMove env d i) := by
  refine Local.bind (Local.proxyAt h) fun p => ?_
  split
  · exact Local.ub
  · exact Local.bind (Local.applyNoexcept h hw) fun _ => Local.pure _

theorem Local.assignFrom {d tmp : Nat} {mk : M V Unit} (hm : Local A W mk) (h : A d) (h' : A tmp) (hw : W d) (hw' : W tmp) :
    Local A W (Dpv.assignFrom d tmp mk) :=
  Local.bind hm fun _ => Local.bind (Local.moveAssign h h' hw hw') fun _ => Local.dtor hw'

end AnyAny.Dpv

namespace AnyAny.DpvFine

open AnyAny.Dpv

variable {n : Nat} {V : Fin n → Type}

/-- An operation on whole containers uses those of `wholeReads` and `wholeWrites` and changes only the latter. -/
theorem exec_local (env : Env V) (op : Op V) : Local (fun d => d ∈ wholeReads op ++ wholeWrites op) (fun d => d ∈ wholeWrites op) (exec env op) := by
  cases op <;> simp only [wholeReads, wholeWrites, exec] <;> refine Local.bind ?_ fun _ => Local.pure _
  · exact Local.defaultCtor (by simp)
  · exact Local.construct (by simp)
  · exact Local.construct (by simp)
  · exact Local.rangeCtor (by simp) (by simp)
  · exact Local.bind (Local.get (by simp)) fun _ => Local.construct (by simp)
  · exact Local.moveCtor (by simp) (by simp) (by simp)
  · exact Local.dtor (by simp)
  · exact Local.bind (Local.get (by simp)) fun _ => Local.apply (by simp) (by simp)
  · exact Local.moveAssign (by simp) (by simp) (by simp) (by simp)
  · exact Local.emplace (by simp) (by simp)
  · exact Local.emplaceBack (by simp) (by simp)
  · exact Local.emplaceBack (by simp) (by simp)
  · exact Local.bind (Local.get (by simp)) fun _ => Local.ite (Local.bind (Local.apply (by simp) (by simp)) fun _ =>
      Local.bind (Local.iteratorAt (by simp)) fun _ => Local.pure _) Local.ub
  · exact Local.emplace (by simp) (by simp)
  · exact Local.bind (Local.iteratorAt (by simp)) fun _ => Local.bind (Local.insertCols (by simp) (by simp)) fun _ =>
      Local.bind (Local.iteratorAt (by simp)) fun _ => Local.pure _
  · exact Local.insertRange (by simp) (by simp)
  · exact Local.assignFrom (Local.construct (by simp)) (by simp) (by simp) (by simp) (by simp)
  · exact Local.assignFrom (Local.rangeCtor (by simp) (by simp)) (by simp) (by simp) (by simp) (by simp)
  · exact Local.applyNoexcept (by simp) (by simp)
  · exact Local.bind (Local.get (by simp)) fun _ => Local.ite (Local.applyNoexcept (by simp) (by simp)) Local.ub
  · exact Local.apply (by simp) (by simp)
  · exact Local.apply (by simp) (by simp)
  · exact Local.apply (by simp) (by simp)
  · exact Local.apply (by simp) (by simp)
  · exact Local.swap (by simp) (by simp) (by simp) (by simp)
  · exact Local.bind (Local.proxyAt (by simp)) fun _ => Local.apply (by simp) (by simp)
  · exact Local.bind (Local.proxyAt (by simp)) fun _ => Local.bind (Local.proxyAt (by simp)) fun _ => Local.apply (by simp) (by simp)
  · exact Local.bind (Local.proxyAt (by simp)) fun _ => Local.bind (Local.proxyAt (by simp)) fun _ =>
      Local.swapFields (by simp) (by simp) (by simp) (by simp) _
  · exact Local.iterMove (by simp) (by simp)
  · exact Local.bind (Local.get (by simp)) fun _ => Local.ite (Local.put (by simp) _) Local.ub

end AnyAny.DpvFine
