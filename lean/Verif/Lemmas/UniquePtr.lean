import Verif.Spec.UniqueHist
import Verif.Lemmas.Poly3
/-
The invariant for histories of unique pointers. `H` are objects whose only pointer is in the hands of a running operation.
-/
namespace AnyAny.UPtr
open AnyAny.Poly
open AnyAny.Mem (Method)

def tgt (S : SS) (obj : Option Nat) : Option (Nat × Addr) := obj.bind fun x => S.types[x]?.map fun t => (t, .var x)

def Live (S : SS) (H : List Nat) (x : Nat) : Prop := Owned S x ∨ x ∈ S.leaked ∨ x ∈ H

/-- The pointer object `o` is the pointer of the class and to the object that `s` says. -/
structure Ptr (w : UW) (S : SS) (o : RefObj) (const : Bool) (ms : List Method) (obj : Option Nat) : Prop where
  kind : o.kind = ptrKind const
  eqMs : o.ms = ms
  hasDel : del ∈ ms
  means : Means w.pw o (tgt S obj) none

structure Inv (w : UW) (S : SS) (H : List Nat) : Prop where
  tmps : ∀ n, w.pw.refs (.tmp n) = none
  slots : ∀ d, match w.pw.refs (.var d), S.slots d with
    | none, none => True
    | some o, some s => Ptr w S o s.const s.ms s.obj
    | _, _ => False
  next : w.next = S.types.length
  live : ∀ x, Live S H x → ∃ t v, S.types[x]? = some t ∧ w.pw.vars x = some (t, v)
  dead : ∀ x, ¬ Live S H x → w.pw.vars x = none
  one : ∀ d e x, S.objOf d = some x → S.objOf e = some x → d = e
  notLeaked : ∀ d x, S.objOf d = some x → x ∉ S.leaked
  notHeld : ∀ d x, S.objOf d = some x → x ∉ H
  nodup : H.Nodup
  heldNotLeaked : ∀ x, x ∈ H → x ∉ S.leaked
  logged : ∀ x t, (x, t) ∈ w.log → S.types[x]? = some t ∧ ¬ Live S H x
  once : ∀ x t, S.types[x]? = some t → ¬ Live S H x → w.log.count (x, t) = 1

variable {w : UW} {S : SS} {H : List Nat}

theorem Inv.fresh (I : Inv w S H) : Fresh w.pw := fun n _ => I.tmps n

theorem Means.free {w w' : PW} {o : RefObj} {tg} (h : Means w o tg none) : Means w' o tg none := by
  cases tg with
  | none => exact h
  | some p => exact Den.congr h (fun n hn => by cases hn)

theorem Ptr.free {w' : UW} {S' : SS} {o c ms obj} (h : Ptr w S o c ms obj) (ht : tgt S' obj = tgt S obj) : Ptr w' S' o c ms obj :=
  ⟨h.kind, h.eqMs, h.hasDel, by rw [ht]; exact Means.free h.means⟩

theorem Inv.get (I : Inv w S H) {d s} (h : S.slots d = some s) : ∃ o, w.pw.refs (.var d) = some o ∧ Ptr w S o s.const s.ms s.obj := by
  have := I.slots d
  rw [h] at this
  cases hr : w.pw.refs (.var d) with
  | none => rw [hr] at this; exact this.elim
  | some o => rw [hr] at this; exact ⟨o, rfl, this⟩

theorem objOf_set_same (S : SS) (d : Nat) (s) : (setSlot S d s).objOf d = s.bind (·.obj) := by simp [SS.objOf, setSlot]

theorem objOf_set_ne (S : SS) {d e : Nat} (s) (h : e ≠ d) : (setSlot S d s).objOf e = S.objOf e := by simp [SS.objOf, setSlot, h]

theorem put_put (d : Nat) (a b) (w : UW) : put d a (put d b w) = put d a w := by
  simp only [put]; congr 2; funext x; simp only [updR]; split <;> rfl

theorem set_set (d : Nat) (a b) (S : SS) : setSlot (setSlot S d b) d a = setSlot S d a := by
  simp only [setSlot]; congr 1; funext x; split <;> rfl

theorem put_comm {d e : Nat} (h : d ≠ e) (a b) (w : UW) : put d a (put e b w) = put e b (put d a w) := by
  simp only [put]; congr 2; funext x; simp only [updR]
  by_cases h1 : x = .var d
  · subst h1; simp [h]
  · simp [h1]

theorem set_comm {d e : Nat} (h : d ≠ e) (a b) (S : SS) : setSlot (setSlot S e b) d a = setSlot (setSlot S d a) e b := by
  simp only [setSlot]; congr 1; funext x
  by_cases h1 : x = d
  · subst h1; simp [h]
  · simp [h1]

theorem put_get_same (d : Nat) (a) (w : UW) : (put d a w).pw.refs (.var d) = a := by simp [put, updR]

theorem put_get_ne {d e : Nat} (h : e ≠ d) (a) (w : UW) : (put d a w).pw.refs (.var e) = w.pw.refs (.var e) := by
  simp [put, updR, h]

theorem live_congr {S S' : SS} {H H' : List Nat} (h : ∀ x, Live S' H' x ↔ Live S H x) {x} (hx : ¬ Live S' H' x) : ¬ Live S H x :=
  fun h' => hx ((h x).2 h')

theorem Inv.perm (I : Inv w S H) {H'} (h : H.Perm H') : Inv w S H' := by
  have hl : ∀ x, Live S H' x ↔ Live S H x := by intro x; simp only [Live, h.mem_iff]
  exact ⟨I.tmps, I.slots, I.next, fun x hx => I.live x ((hl x).1 hx), fun x hx => I.dead x (live_congr hl hx), I.one, I.notLeaked,
    fun d x hd hx => I.notHeld d x hd (h.mem_iff.2 hx), h.nodup_iff.1 I.nodup, fun x hx => I.heldNotLeaked x (h.mem_iff.2 hx),
    fun x t hx => ⟨(I.logged x t hx).1, fun hl' => (I.logged x t hx).2 ((hl x).1 hl')⟩, fun x t ht hx => I.once x t ht (live_congr hl hx)⟩

/-- Take the pointer out of the variable `d`, which is destroyed. -/
theorem Inv.take (I : Inv w S H) {d s} (hs : S.slots d = some s) : Inv (put d none w) (setSlot S d none) (s.obj.toList ++ H) := by
  have hd : S.objOf d = s.obj := by simp [SS.objOf, hs]
  have hl : ∀ x, Live (setSlot S d none) (s.obj.toList ++ H) x ↔ Live S H x := by
    intro x
    simp only [Live, List.mem_append, Option.mem_toList, Owned]
    constructor
    · rintro (⟨e, he⟩ | hx | hx | hx)
      · by_cases hed : e = d
        · subst hed; rw [objOf_set_same] at he; cases he
        · rw [objOf_set_ne _ _ hed] at he; exact .inl ⟨e, he⟩
      · exact .inr (.inl hx)
      · exact .inl ⟨d, by rw [hd]; exact hx⟩
      · exact .inr (.inr hx)
    · rintro (⟨e, he⟩ | hx | hx)
      · by_cases hed : e = d
        · subst hed; rw [hd] at he; exact .inr (.inr (.inl he))
        · exact .inl ⟨e, by rw [objOf_set_ne _ _ hed]; exact he⟩
      · exact .inr (.inl hx)
      · exact .inr (.inr (.inr hx))
  have ho : ∀ e x, (setSlot S d none).objOf e = some x → e ≠ d ∧ S.objOf e = some x := by
    intro e x he
    by_cases hed : e = d
    · subst hed; rw [objOf_set_same] at he; cases he
    · rw [objOf_set_ne _ _ hed] at he; exact ⟨hed, he⟩
  refine ⟨fun n => ?_, fun e => ?_, I.next, fun x hx => I.live x ((hl x).1 hx), fun x hx => I.dead x (live_congr hl hx), ?_, ?_, ?_, ?_, ?_, ?_, ?_⟩
  · simp [put, updR, I.tmps]
  · by_cases hed : e = d
    · subst hed; simp [put_get_same, setSlot]
    · rw [put_get_ne hed]
      have := I.slots e
      simp only [setSlot, hed, if_false]
      revert this
      split <;> (try exact id)
      exact fun h => h.free rfl
  · intro e e' x h1 h2; exact I.one e e' x (ho _ _ h1).2 (ho _ _ h2).2
  · intro e x h1; exact I.notLeaked e x (ho _ _ h1).2
  · intro e x h1 h2
    rw [List.mem_append, Option.mem_toList] at h2
    rcases h2 with h2 | h2
    · exact (ho _ _ h1).1 (I.one e d x (ho _ _ h1).2 (by rw [hd]; exact h2))
    · exact I.notHeld e x (ho _ _ h1).2 h2
  · cases hso : s.obj with
    | none => simpa using I.nodup
    | some x => simpa using ⟨I.notHeld d x (by rw [hd, hso]), I.nodup⟩
  · intro x hx
    rw [List.mem_append, Option.mem_toList] at hx
    rcases hx with hx | hx
    · exact I.notLeaked d x (by rw [hd]; exact hx)
    · exact I.heldNotLeaked x hx
  · exact fun x t hx => ⟨(I.logged x t hx).1, fun h => (I.logged x t hx).2 ((hl x).1 h)⟩
  · exact fun x t ht hx => I.once x t ht (live_congr hl hx)

/-- Put a pointer into the new variable `d`. -/
theorem Inv.place {obj} (I : Inv w S (obj.toList ++ H)) {d u c ms o} (hs : S.slots d = none) (hp : Ptr w S o c ms obj) :
    Inv (put d (some o) w) (setSlot S d (some ⟨u, c, ms, obj⟩)) H := by
  have hd : S.objOf d = none := by simp [SS.objOf, hs]
  have ho : ∀ e x, (setSlot S d (some ⟨u, c, ms, obj⟩)).objOf e = some x → (e = d ∧ obj = some x) ∨ (e ≠ d ∧ S.objOf e = some x) := by
    intro e x he
    by_cases hed : e = d
    · subst hed; rw [objOf_set_same] at he; exact .inl ⟨rfl, he⟩
    · rw [objOf_set_ne _ _ hed] at he; exact .inr ⟨hed, he⟩
  have hl : ∀ x, Live (setSlot S d (some ⟨u, c, ms, obj⟩)) H x ↔ Live S (obj.toList ++ H) x := by
    intro x
    simp only [Live, List.mem_append, Option.mem_toList, Owned]
    constructor
    · rintro (⟨e, he⟩ | hx | hx)
      · rcases ho e x he with ⟨_, h⟩ | ⟨_, h⟩
        · exact .inr (.inr (.inl h))
        · exact .inl ⟨e, h⟩
      · exact .inr (.inl hx)
      · exact .inr (.inr (.inr hx))
    · rintro (⟨e, he⟩ | hx | hx | hx)
      · have hed : e ≠ d := by rintro rfl; rw [hd] at he; cases he
        exact .inl ⟨e, by rw [objOf_set_ne _ _ hed]; exact he⟩
      · exact .inr (.inl hx)
      · exact .inl ⟨d, by rw [objOf_set_same]; exact hx⟩
      · exact .inr (.inr hx)
  have hheld : ∀ x, obj = some x → x ∉ H := by
    rintro x rfl h; have := I.nodup; simp at this; exact this.1 h
  refine ⟨fun n => ?_, fun e => ?_, I.next, fun x hx => I.live x ((hl x).1 hx), fun x hx => I.dead x (live_congr hl hx), ?_, ?_, ?_, ?_, ?_, ?_, ?_⟩
  · simp [put, updR, I.tmps]
  · by_cases hed : e = d
    · subst hed; simp only [put_get_same, setSlot, if_true]; exact hp.free rfl
    · rw [put_get_ne hed]
      have := I.slots e
      simp only [setSlot, hed, if_false]
      revert this
      split <;> (try exact id)
      exact fun h => h.free rfl
  · intro e e' x h1 h2
    rcases ho _ _ h1 with ⟨h1', h3⟩ | ⟨h1', h3⟩ <;> rcases ho _ _ h2 with ⟨h2', h4⟩ | ⟨h2', h4⟩
    · rw [h1', h2']
    · exact absurd (by simp [h3]) (I.notHeld e' x h4)
    · exact absurd (by simp [h4]) (I.notHeld e x h3)
    · exact I.one e e' x h3 h4
  · intro e x h1
    rcases ho _ _ h1 with ⟨_, h3⟩ | ⟨_, h3⟩
    · exact I.heldNotLeaked x (by simp [h3])
    · exact I.notLeaked e x h3
  · intro e x h1 h2
    rcases ho _ _ h1 with ⟨_, h3⟩ | ⟨_, h3⟩
    · exact hheld x h3 h2
    · exact I.notHeld e x h3 (by simp [h2])
  · exact (List.nodup_append.1 I.nodup).2.1
  · exact fun x hx => I.heldNotLeaked x (by simp [hx])
  · exact fun x t hx => ⟨(I.logged x t hx).1, fun h => (I.logged x t hx).2 ((hl x).1 h)⟩
  · exact fun x t ht hx => I.once x t ht (live_congr hl hx)

/-- `new`. -/
theorem Inv.alloc (I : Inv w S H) (t v : Nat) :
    Inv (newObj t v w).2 { S with types := S.types ++ [t] } (w.next :: H) ∧ ∀ o c ms obj, (∀ x, obj = some x → Live S H x) → Ptr w S o c ms obj →
      Ptr (newObj t v w).2 { S with types := S.types ++ [t] } o c ms obj := by
  have htg : ∀ obj : Option Nat, (∀ x, obj = some x → Live S H x) → tgt { S with types := S.types ++ [t] } obj = tgt S obj := by
    intro obj ho
    cases obj with
    | none => rfl
    | some x =>
      obtain ⟨t', v', h1, _⟩ := I.live x (ho x rfl)
      have hlt := (List.getElem?_eq_some_iff.1 h1).1
      simp [tgt, List.getElem?_append_left hlt]
  have hp : ∀ o c ms obj, (∀ x, obj = some x → Live S H x) → Ptr w S o c ms obj →
      Ptr (newObj t v w).2 { S with types := S.types ++ [t] } o c ms obj := fun o c ms obj ho h => h.free (htg obj ho)
  refine ⟨?_, hp⟩
  have hn : ¬ Live S H w.next := by
    intro h
    obtain ⟨t', v', h1, _⟩ := I.live _ h
    have hlt := (List.getElem?_eq_some_iff.1 h1).1
    rw [I.next] at hlt; omega
  have hl : ∀ x, Live { S with types := S.types ++ [t] } (w.next :: H) x ↔ x = w.next ∨ Live S H x := by
    intro x
    simp only [Live, List.mem_cons]
    constructor
    · rintro (h | h | h | h)
      · exact .inr (.inl h)
      · exact .inr (.inr (.inl h))
      · exact .inl h
      · exact .inr (.inr (.inr h))
    · rintro (h | h | h | h)
      · exact .inr (.inr (.inl h))
      · exact .inl h
      · exact .inr (.inl h)
      · exact .inr (.inr (.inr h))
  have hold : ∀ x t', x ≠ w.next → (S.types ++ [t])[x]? = some t' → S.types[x]? = some t' := by
    intro x t' hx h
    have hlt := (List.getElem?_eq_some_iff.1 h).1
    simp only [List.length_append, List.length_singleton] at hlt
    rw [I.next] at hx
    rw [List.getElem?_append_left (by omega)] at h; exact h
  refine ⟨I.tmps, fun d => ?_, by simp [newObj, I.next], ?_, ?_, I.one, I.notLeaked, ?_, ?_, ?_, ?_, ?_⟩
  · have := I.slots d
    show (match w.pw.refs (.var d), S.slots d with | none, none => True | some o, some s => Ptr _ _ o s.const s.ms s.obj | _, _ => False)
    revert this
    split <;> (try exact id)
    rename_i o s h1 h2
    exact hp _ _ _ _ (fun x hx => .inl ⟨d, by simp [SS.objOf, h2, hx]⟩)
  · intro x hx
    rcases (hl x).1 hx with rfl | hx
    · exact ⟨t, v, by simp [I.next], by simp [newObj, Mem.upd]⟩
    · obtain ⟨t', v', h1, h2⟩ := I.live x hx
      have hlt := (List.getElem?_eq_some_iff.1 h1).1
      refine ⟨t', v', by rw [List.getElem?_append_left hlt]; exact h1, ?_⟩
      have : x ≠ w.next := by rw [I.next]; omega
      simp [newObj, Mem.upd, this, h2]
  · intro x hx
    have h1 : x ≠ w.next := fun h => hx ((hl x).2 (.inl h))
    have h2 : ¬ Live S H x := fun h => hx ((hl x).2 (.inr h))
    simp [newObj, Mem.upd, h1, I.dead x h2]
  · intro d x hd hx
    rcases List.mem_cons.1 hx with rfl | hx
    · exact hn (.inl ⟨d, hd⟩)
    · exact I.notHeld d x hd hx
  · exact List.nodup_cons.2 ⟨fun h => hn (.inr (.inr h)), I.nodup⟩
  · intro x hx hlk
    rcases List.mem_cons.1 hx with rfl | hx
    · exact hn (.inr (.inl hlk))
    · exact I.heldNotLeaked x hx hlk
  · intro x t' hx
    obtain ⟨h1, h2⟩ := I.logged x t' hx
    have hlt := (List.getElem?_eq_some_iff.1 h1).1
    refine ⟨by rw [List.getElem?_append_left hlt]; exact h1, fun h => ?_⟩
    rcases (hl x).1 h with rfl | h
    · rw [I.next] at hlt; omega
    · exact h2 h
  · intro x t' ht hx
    have h1 : x ≠ w.next := fun h => hx ((hl x).2 (.inl h))
    exact I.once x t' (hold x t' h1 ht) (fun h => hx ((hl x).2 (.inr h)))

theorem Inv.leak {obj : Option Nat} (I : Inv w S (obj.toList ++ H)) : Inv w { S with leaked := obj.toList ++ S.leaked } H := by
  have hl : ∀ x, Live { S with leaked := obj.toList ++ S.leaked } H x ↔ Live S (obj.toList ++ H) x := by
    intro x
    simp only [Live, List.mem_append]
    constructor
    · rintro (h | (h | h) | h)
      · exact .inl h
      · exact .inr (.inr (.inl h))
      · exact .inr (.inl h)
      · exact .inr (.inr (.inr h))
    · rintro (h | h | h | h)
      · exact .inl h
      · exact .inr (.inl (.inr h))
      · exact .inr (.inl (.inl h))
      · exact .inr (.inr h)
  refine ⟨I.tmps, fun d => ?_, I.next, fun x hx => I.live x ((hl x).1 hx), fun x hx => I.dead x (live_congr hl hx), I.one, ?_, ?_, ?_, ?_, ?_, ?_⟩
  · have := I.slots d
    show (match w.pw.refs (.var d), S.slots d with | none, none => True | some o, some s => Ptr _ _ o s.const s.ms s.obj | _, _ => False)
    revert this
    split <;> (try exact id)
    exact fun h => h.free rfl
  · intro d x hd hx
    rcases List.mem_append.1 hx with hx | hx
    · exact I.notHeld d x hd (by simp [hx])
    · exact I.notLeaked d x hd hx
  · exact fun d x hd hx => I.notHeld d x hd (by simp [hx])
  · exact (List.nodup_append.1 I.nodup).2.1
  · intro x hx h
    rcases List.mem_append.1 h with h | h
    · exact (List.nodup_append.1 I.nodup).2.2 x h x hx rfl
    · exact I.heldNotLeaked x (by simp [hx]) h
  · exact fun x t hx => ⟨(I.logged x t hx).1, fun h => (I.logged x t hx).2 ((hl x).1 h)⟩
  · exact fun x t ht hx => I.once x t ht (live_congr hl hx)

theorem Inv.tick (I : Inv w S H) (j : Nat) : Inv { w with pw := { w.pw with tmps := j } } S H := by
  refine ⟨I.tmps, fun d => ?_, I.next, I.live, I.dead, I.one, I.notLeaked, I.notHeld, I.nodup, I.heldNotLeaked, I.logged, I.once⟩
  have := I.slots d
  revert this
  show (match w.pw.refs (.var d), S.slots d with | none, none => True | some o, some s => Ptr _ _ o s.const s.ms s.obj | _, _ => False) →
    (match w.pw.refs (.var d), S.slots d with | none, none => True | some o, some s => Ptr _ _ o s.const s.ms s.obj | _, _ => False)
  split <;> (try exact id)
  exact fun h => h.free rfl

/-- Deleting the object in hand. -/
theorem Inv.deleted {x t : Nat} (I : Inv w S (x :: H)) (ht : S.types[x]? = some t) :
    Inv { w with pw := { w.pw with vars := Mem.upd w.pw.vars x none }, log := w.log ++ [(x, t)] } S H := by
  have hxo : ∀ d, S.objOf d ≠ some x := fun d hd => I.notHeld d x hd (by simp)
  have hxl : x ∉ S.leaked := I.heldNotLeaked x (by simp)
  have hnd : x ∉ H ∧ H.Nodup := by simpa using I.nodup
  have hnl : ¬ Live S H x := by
    rintro (⟨d, hd⟩ | h | h)
    · exact hxo d hd
    · exact hxl h
    · exact hnd.1 h
  have hl : ∀ y, Live S (x :: H) y ↔ y = x ∨ Live S H y := by
    intro y
    simp only [Live, List.mem_cons]
    constructor
    · rintro (h | h | h | h)
      · exact .inr (.inl h)
      · exact .inr (.inr (.inl h))
      · exact .inl h
      · exact .inr (.inr (.inr h))
    · rintro (h | h | h | h)
      · exact .inr (.inr (.inl h))
      · exact .inl h
      · exact .inr (.inl h)
      · exact .inr (.inr (.inr h))
  refine ⟨I.tmps, fun d => ?_, I.next, ?_, ?_, I.one, I.notLeaked, ?_, hnd.2, ?_, ?_, ?_⟩
  · have := I.slots d
    show (match w.pw.refs (.var d), S.slots d with | none, none => True | some o, some s => Ptr _ _ o s.const s.ms s.obj | _, _ => False)
    revert this
    split <;> (try exact id)
    exact fun h => h.free rfl
  · intro y hy
    have : y ≠ x := by rintro rfl; exact hnl hy
    obtain ⟨t', v', h1, h2⟩ := I.live y ((hl y).2 (.inr hy))
    exact ⟨t', v', h1, by simp [Mem.upd, this, h2]⟩
  · intro y hy
    by_cases hyx : y = x
    · subst hyx; simp [Mem.upd]
    · have := I.dead y (fun h => ((hl y).1 h).elim hyx hy)
      simp [Mem.upd, hyx, this]
  · exact fun d y hd hy => I.notHeld d y hd (by simp [hy])
  · exact fun y hy => I.heldNotLeaked y (by simp [hy])
  · intro y t' hy
    rcases List.mem_append.1 hy with hy | hy
    · obtain ⟨h1, h2⟩ := I.logged y t' hy
      exact ⟨h1, fun h => h2 ((hl y).2 (.inr h))⟩
    · simp only [List.mem_singleton, Prod.mk.injEq] at hy
      obtain ⟨rfl, rfl⟩ := hy
      exact ⟨ht, hnl⟩
  · intro y t' ht' hy
    rw [List.count_append]
    by_cases hyx : y = x
    · subst hyx
      rw [ht] at ht'; cases ht'
      have h0 : w.log.count (y, t) = 0 := by
        rw [List.count_eq_zero]
        intro h; exact (I.logged y t h).2 ((hl y).2 (.inl rfl))
      simp [h0]
    · have h0 : [(x, t)].count (y, t') = 0 := by
        rw [List.count_eq_zero]; simp [hyx]
      rw [h0, I.once y t' ht' (fun h => ((hl y).1 h).elim hyx hy)]

theorem deleteIf_none {o c ms} (hp : Ptr w S o c ms none) : UPtr.deleteIf o w = some w := by
  have hv := Means.val hp.means
  simp only [tgt, Option.bind_none, Option.map_none] at hv
  simp [UPtr.deleteIf, hv]

theorem deleteIf_some (hf : Fresh w.pw) {o c ms x t v} (hp : Ptr w S o c ms (some x)) (ht : S.types[x]? = some t)
    (hx : w.pw.vars x = some (t, v)) :
    ∃ j, UPtr.deleteIf o w =
      some { w with pw := { w.pw with tmps := j, vars := Mem.upd w.pw.vars x none }, log := w.log ++ [(x, t)] } := by
  have hm : Den w.pw o t (.var x) none := by have := hp.means; simpa [tgt, ht, Means] using this
  have hev : Ev w.pw (withTemp o fun r => dispatchAt r UPtr.del) (t, some (.var x)) :=
    Ev.withTemp hf (dispatchAt_ev (push_same _ _) (hm.push hf) (by rw [hp.eqMs]; exact hp.hasDel))
  obtain ⟨j, _, hj⟩ := hev
  exact ⟨j, by simp [UPtr.deleteIf, deleter, hm.val, hj, deleteFn, hx]⟩

/-- The deleter deletes the object in hand. -/
theorem Inv.deleteIf {obj} (I : Inv w S (obj.toList ++ H)) {o c ms} (hp : Ptr w S o c ms obj) :
    ∃ w', UPtr.deleteIf o w = some w' ∧ Inv w' S H := by
  cases obj with
  | none => exact ⟨w, deleteIf_none hp, by simpa using I⟩
  | some x =>
    obtain ⟨t, v, ht, hx⟩ := I.live x (.inr (.inr (by simp)))
    obtain ⟨j, hj⟩ := deleteIf_some I.fresh hp ht hx
    exact ⟨_, hj, (Inv.deleted (x := x) I ht).tick j⟩

theorem ptrKind_eq : ptrKind = ptrClass := funext fun c => by cases c <;> rfl

theorem ptrKind_isPtr (c : Bool) : (ptrKind c).isPtr = true := by cases c <;> rfl

theorem ptrKind_stateful (c : Bool) : (ptrKind c).isStateful = false := by cases c <;> rfl

theorem null_ptr (c : Bool) (ms : List Method) (h : del ∈ ms) : Ptr w S (ptrNull (ptrKind c) ms) c ms none :=
  ⟨rfl, rfl, h, ptrNull_isNull (ptrKind_isPtr c)⟩

theorem Ptr.isNull {o c ms} (h : Ptr w S o c ms none) : IsNull o := h.means

/-- Evaluate a conversion of a pointer variable. -/
theorem Inv.convert (I : Inv w S H) {p : Nat} {s : Slot} {o : RefObj} (hr : w.pw.refs (.var p) = some o) (hp : Ptr w S o s.const s.ms s.obj)
    (hlive : ∀ x, s.obj = some x → Live S H x) {c ms} (hc : SlotConv c ms s) (hd : del ∈ ms) :
    ∃ o' j, eval (Poly.convert (ptrKind c) ms (.var p)) w = some (o', { w with pw := { w.pw with tmps := j } }) ∧
      Ptr { w with pw := { w.pw with tmps := j } } S o' c ms s.obj := by
  have hc' : Converts (ptrKind c) ms ⟨ptrKind s.const, s.ms, none, none⟩ := by rw [ptrKind_eq]; exact hc
  cases hobj : s.obj with
  | none =>
    rw [hobj] at hp
    obtain ⟨o', ⟨j, _, hj⟩, hn, hk, hm⟩ := convert_null I.fresh hr hp.isNull (s := ⟨ptrKind s.const, s.ms, none, none⟩) hp.kind hc'
    exact ⟨o', j, by simp [eval, hj], hk, hm, hd, hn⟩
  | some x =>
    obtain ⟨t, v, ht, _⟩ := I.live x (hlive x hobj)
    have hm : Den w.pw o t (.var x) none := by have := hp.means; simpa [tgt, hobj, ht, Means] using this
    obtain ⟨o', ⟨j, _, hj⟩, hD, hk, hms⟩ := convert_gives I.fresh hr hm (s := ⟨ptrKind s.const, s.ms, none, none⟩) hp.kind hp.eqMs hc'
    refine ⟨o', j, by simp [eval, hj], hk, hms, hd, ?_⟩
    simp only [ptrKind_stateful, Bool.false_eq_true, if_false] at hD
    simpa [tgt, ht, Means] using hD.congr (w' := ({ w.pw with tmps := j } : PW)) (fun n hn => by cases hn)

/-- Evaluate the pointer to a new object. -/
theorem Inv.pointTo (I : Inv w S H) {x t v : Nat} (ht : S.types[x]? = some t) (hx : w.pw.vars x = some (t, v)) (c : Bool) {ms}
    (hd : del ∈ ms) :
    ∃ o j, eval (polyOfVar (ptrKind c) ms x) w = some (o, { w with pw := { w.pw with tmps := j } }) ∧
      Ptr { w with pw := { w.pw with tmps := j } } S o c ms (some x) := by
  obtain ⟨o, ⟨j, _, hj⟩, hD, hk, hm⟩ := polyOfVar_gives (w := w.pw) (ms := ms) hx (ptrKind_stateful c)
  refine ⟨o, j, by simp [eval, hj], hk, hm, hd, ?_⟩
  simpa [tgt, ht, Means] using hD.congr (w' := ({ w.pw with tmps := j } : PW)) (fun n hn => by cases hn)

theorem Inv.del (I : Inv w S H) {d s} (h : S.slots d = some s) : UPtr.del ∈ s.ms := by
  obtain ⟨o, _, hp⟩ := I.get h
  exact hp.hasDel

theorem setSlot_same (S : SS) (d : Nat) (s) : (setSlot S d s).slots d = s := by simp [setSlot]
theorem setSlot_ne (S : SS) {d e : Nat} (s) (h : e ≠ d) : (setSlot S d s).slots e = S.slots e := by simp [setSlot, h]

/-- `reset` of the unique pointer `d` to the pointer `o` in hand. -/
theorem Inv.reset {obj} (I : Inv w S (obj.toList ++ H)) {d s o} (hs : S.slots d = some s) (hp : Ptr w S o s.const s.ms obj) :
    ∃ w', UPtr.reset d o w = some w' ∧ Inv w' (setSlot S d (some { s with obj := obj })) H := by
  obtain ⟨old, hold, hpo⟩ := I.get hs
  have I1 := I.take hs
  have I2 : Inv (put d none w) (setSlot S d none) (obj.toList ++ (s.obj.toList ++ H)) := I1.perm (by
    rw [← List.append_assoc, ← List.append_assoc]; exact List.perm_append_comm.append_right _)
  have I3 := I2.place (u := s.uniq) (setSlot_same S d none) (hp.free (w' := put d none w) (S' := setSlot S d none) rfl)
  rw [put_put, set_set] at I3
  obtain ⟨w', h1, h2⟩ := I3.deleteIf (hpo.free (w' := put d (some o) w) (S' := setSlot S d (some ⟨s.uniq, s.const, s.ms, obj⟩)) rfl)
  exact ⟨w', by simp [UPtr.reset, UPtr.get, hold, h1], h2⟩

/-- `release`. -/
theorem Inv.release (I : Inv w S H) {d s} (hs : S.slots d = some s) :
    ∃ o w', UPtr.release d w = some (o, w') ∧ Ptr w' (setSlot S d (some s.noObj)) o s.const s.ms s.obj ∧
      Inv w' (setSlot S d (some s.noObj)) (s.obj.toList ++ H) := by
  obtain ⟨o, ho, hp⟩ := I.get hs
  have I1 := I.take hs
  have I2 := Inv.place (obj := none) (u := s.uniq) I1 (setSlot_same S d none)
    (null_ptr (w := put d none w) (S := setSlot S d none) s.const s.ms (I.del hs))
  rw [put_put, set_set] at I2
  refine ⟨o, put d (some (ptrNull o.kind o.ms)) w, by simp [UPtr.release, UPtr.get, ho], hp.free rfl, ?_⟩
  rw [hp.kind, hp.eqMs]; exact I2

theorem step (I : Inv w S []) {op : Op} (L : Legal S op) : ∃ w', exec op w = some w' ∧ Inv w' (specStep S op) [] := by
  cases op with
  | makeNull d c ms =>
    exact ⟨_, rfl, Inv.place (obj := none) (u := true) I L (null_ptr c _ (by simp))⟩
  | makeNew d c ms t v =>
    obtain ⟨I1, _⟩ := I.alloc t v
    obtain ⟨o, j, he, hp⟩ := I1.pointTo (x := w.next) (t := t) (v := v) (by simp [I.next]) (by simp [newObj, Mem.upd]) c
      (ms := del :: ms) (by simp)
    have I2 := Inv.place (obj := some w.next) (H := []) (u := true) (d := d) (I1.tick j) L hp
    refine ⟨_, by simp only [exec, makeNew]; rw [show (newObj t v w).1 = w.next from rfl, he]; rfl, ?_⟩
    rw [I.next] at I2
    exact I2
  | moveCtor d s =>
    obtain ⟨hd, q, hq, hu⟩ := L
    have hne : d ≠ s := by rintro rfl; rw [hd] at hq; cases hq
    obtain ⟨o, w', h1, h2, h3⟩ := I.release hq
    have h4 := h3.place (d := d) (u := q.uniq) (by rw [setSlot_ne _ _ hne]; exact hd) h2
    refine ⟨_, by simp only [exec, moveCtor, h1]; rfl, ?_⟩
    simp only [specStep, hq, Option.map_some]
    exact h4
  | moveAssign d s =>
    obtain ⟨a, b, ha, hb, hua, hub, hc, hm⟩ := L
    obtain ⟨o, w', h1, h2, h3⟩ := I.release hb
    by_cases hne : d = s
    · subst hne
      rw [ha] at hb; cases hb
      obtain ⟨w2, h4, h5⟩ := h3.reset (setSlot_same S d (some a.noObj)) h2
      refine ⟨w2, by simp [exec, moveAssign, h1, h4], ?_⟩
      simp only [specStep, give, ha, SS.objOf]
      exact h5
    · obtain ⟨w2, h4, h5⟩ := h3.reset (d := d) (s := a) (by rw [setSlot_ne _ _ hne]; exact ha) (by rw [hc, hm]; exact h2)
      refine ⟨w2, by simp [exec, moveAssign, h1, h4], ?_⟩
      simp only [specStep, give, ha, hb, SS.objOf]
      exact h5
  | resetNew d t v =>
    obtain ⟨s, hs, hu⟩ := L
    obtain ⟨o0, ho0, hp0⟩ := I.get hs
    obtain ⟨I1, _⟩ := I.alloc t v
    obtain ⟨o, j, he, hp⟩ := I1.pointTo (x := w.next) (t := t) (v := v) (by simp [I.next]) (by simp [newObj, Mem.upd]) s.const
      (ms := s.ms) (I.del hs)
    obtain ⟨w2, h4, h5⟩ := Inv.reset (obj := some w.next) (H := []) (I1.tick j) (d := d) (s := s) hs hp
    refine ⟨w2, by
      simp only [exec, resetNew, UPtr.get, ho0, Option.bind_eq_bind, Option.bind_some, hp0.kind, hp0.eqMs]
      rw [show (newObj t v w).1 = w.next from rfl, he]
      exact h4, ?_⟩
    simp only [specStep, hs, ← I.next, Option.map_some]
    exact h5
  | resetNull d =>
    obtain ⟨s, hs, hu⟩ := L
    obtain ⟨o0, ho0, hp0⟩ := I.get hs
    obtain ⟨w2, h4, h5⟩ := Inv.reset (obj := none) (H := []) I hs (null_ptr s.const s.ms (I.del hs))
    refine ⟨w2, by simp [exec, resetNull, UPtr.get, ho0, hp0.kind, hp0.eqMs, h4], ?_⟩
    simp only [specStep, hs, Option.map_some]; exact h5
  | release p d =>
    obtain ⟨hp, q, hq, hu⟩ := L
    have hne : p ≠ d := by rintro rfl; rw [hp] at hq; cases hq
    obtain ⟨o, w', h1, h2, h3⟩ := I.release hq
    have h4 := h3.place (d := p) (u := false) (by rw [setSlot_ne _ _ hne]; exact hp) h2
    refine ⟨_, by simp only [exec, releaseTo, h1]; rfl, ?_⟩
    simp only [specStep, hq, Option.map_some]
    exact h4
  | adopt d c ms p =>
    obtain ⟨hd, s, hs, hu, hc⟩ := L
    have hne : d ≠ p := by rintro rfl; rw [hd] at hs; cases hs
    obtain ⟨o, ho, hp⟩ := I.get hs
    obtain ⟨o', j, he, hp'⟩ := I.convert ho hp (fun x hx => .inl ⟨p, by simp [SS.objOf, hs, hx]⟩) hc (by simp)
    have I1 := (I.tick j).take hs
    have I2 := I1.place (d := d) (u := true) (by rw [setSlot_ne _ _ hne]; exact hd) (hp'.free (S' := setSlot S p none) rfl)
    refine ⟨_, by simp only [exec, adopt, he]; rfl, ?_⟩
    simp only [specStep, SS.objOf, hs]
    exact I2
  | resetRaw d p =>
    obtain ⟨a, s, ha, hua, hs, hu, hc⟩ := L
    have hne : d ≠ p := by rintro rfl; rw [ha] at hs; cases hs; rw [hua] at hu; cases hu
    obtain ⟨o, ho, hp⟩ := I.get hs
    obtain ⟨o0, ho0, hp0⟩ := I.get ha
    obtain ⟨o', j, he, hp'⟩ := I.convert ho hp (fun x hx => .inl ⟨p, by simp [SS.objOf, hs, hx]⟩) hc (I.del ha)
    have I1 := (I.tick j).take hs
    obtain ⟨w2, h4, h5⟩ := I1.reset (d := d) (s := a) (by rw [setSlot_ne _ _ hne]; exact ha) (hp'.free (S' := setSlot S p none) rfl)
    refine ⟨w2, by simp [exec, resetRaw, UPtr.get, ho0, hp0.kind, hp0.eqMs, he, h4], ?_⟩
    simp only [specStep, SS.objOf, hs, ha]
    exact h5
  | forget p =>
    obtain ⟨s, hs, hu⟩ := L
    have I1 := (I.take hs).leak
    refine ⟨_, rfl, ?_⟩
    simp only [specStep, SS.objOf, hs]
    exact I1
  | swap d e =>
    obtain ⟨a, b, ha, hb, hua, hub, hc, hm⟩ := L
    obtain ⟨oa, hoa, hpa⟩ := I.get ha
    obtain ⟨ob, hob, hpb⟩ := I.get hb
    refine ⟨_, by simp only [exec, UPtr.swap, UPtr.get, hoa, hob]; rfl, ?_⟩
    simp only [specStep]
    rw [ha, hb]
    by_cases hne : d = e
    · subst hne
      rw [ha] at hb; cases hb
      have I1 := (I.take ha).place (u := a.uniq) (setSlot_same S d none) (hpa.free (w' := put d none w) (S' := setSlot S d none) rfl)
      rw [put_put, set_set] at I1 ⊢
      exact I1
    · have hne' : e ≠ d := fun h => hne h.symm
      have I1 := (I.take ha).take (d := e) (s := b) (by rw [setSlot_ne _ _ hne']; exact hb)
      have I2 := I1.place (d := d) (u := b.uniq) (by rw [setSlot_ne _ _ hne]; exact setSlot_same _ _ _)
        (hpb.free (w' := put e none (put d none w)) (S' := setSlot (setSlot S d none) e none) rfl)
      have I3 := I2.place (d := e) (u := a.uniq) (by rw [setSlot_ne _ _ hne']; exact setSlot_same _ _ _)
        (hpa.free (w' := put d (some ob) (put e none (put d none w))) (S' := setSlot (setSlot (setSlot S d none) e none) d
          (some ⟨b.uniq, b.const, b.ms, b.obj⟩)) rfl)
      rw [put_comm hne', put_put, put_comm hne', put_put, set_comm hne', set_set, set_comm hne', set_set] at I3
      rw [put_comm hne', set_comm hne']
      exact I3
  | destroy d =>
    obtain ⟨s, hs, hu⟩ := L
    obtain ⟨o, ho, hp⟩ := I.get hs
    cases hobj : s.obj with
    | none =>
      rw [hobj] at hp
      refine ⟨put d none w, by simp [exec, UPtr.destroy, UPtr.get, ho, deleteIf_none hp], ?_⟩
      have := I.take hs
      rw [hobj] at this; exact this
    | some x =>
      rw [hobj] at hp
      obtain ⟨t, v, ht, hx⟩ := I.live x (.inl ⟨d, by simp [SS.objOf, hs, hobj]⟩)
      obtain ⟨j, hj⟩ := deleteIf_some I.fresh hp ht hx
      refine ⟨_, by simp only [exec, UPtr.destroy, UPtr.get, ho, Option.bind_eq_bind, Option.bind_some, hj]; rfl, ?_⟩
      have := I.take hs
      rw [hobj] at this
      exact (Inv.deleted (S := setSlot S d none) this ht).tick j

theorem Inv.init : Inv .init .init [] := by
  have hl : ∀ x, ¬ Live SS.init [] x := by
    rintro x (⟨d, hd⟩ | h | h)
    · cases hd
    · cases h
    · cases h
  exact ⟨fun _ => rfl, fun _ => trivial, rfl, fun x h => absurd h (hl x), fun _ _ => rfl, (fun _ _ _ h => by cases h), (fun _ _ h => by cases h),
    (fun _ _ h => by cases h), List.nodup_nil, (fun _ h => by cases h), (fun _ _ h => by cases h), (fun _ _ h => by cases h)⟩

theorem Reach.inv (h : Reach w S) : Inv w S [] := by
  induction h with
  | init => exact Inv.init
  | step _ L he ih =>
    obtain ⟨w', h1, h2⟩ := UPtr.step ih L
    rw [he] at h1; cases h1; exact h2

end AnyAny.UPtr
