import Verif.Lemmas.DpvFine
/-
C117: elements and fields of data_parallel_vectors in several threads.
-/
namespace AnyAny.DpvFine

open AnyAny.Dpv

variable {n : Nat} {V : Fin n → Type} {α : Type}

/-- All accesses of the code keep to the ownership. -/
def Within (own : Owner n) (i : Nat) : Code V α → Prop
  | .ret _ | .ub => True
  | .col d _ k => MayRead own i (.shape d) ∧ ∀ s, Within own i (k s)
  | .read d j x k => MayRead own i (.shape d) ∧ MayRead own i (.field d x j) ∧ ∀ y, Within own i (k y)
  | .write d j x _ k => MayRead own i (.shape d) ∧ MayWrite own i (.field d x j) ∧ Within own i k
  | .call _ k => ∀ g, Within own i (k g)
  | .whole op k => (∀ x : Part n, x.cont ∈ wholeReads op → MayRead own i x) ∧ (∀ x : Part n, x.cont ∈ wholeWrites op → MayWrite own i x) ∧
      ∀ r, Within own i (k r)

section
variable {own : Owner n} {i : Nat}

theorem MayWrite.read {x : Part n} (h : MayWrite own i x) : MayRead own i x := .inl h

theorem within_bind {β : Type} {f : α → Code V β} (hf : ∀ a, Within own i (f a)) : ∀ {c : Code V α}, Within own i c → Within own i (c.bind f)
  | .ret a, _ => hf a
  | .ub, _ => trivial
  | .col _ _ _, h => ⟨h.1, fun s => within_bind hf (h.2 s)⟩
  | .read _ _ _ _, h => ⟨h.1, h.2.1, fun y => within_bind hf (h.2.2 y)⟩
  | .write _ _ _ _ _, h => ⟨h.1, h.2.1, within_bind hf h.2.2⟩
  | .call _ _, h => fun g => within_bind hf (h g)
  | .whole _ _, h => ⟨h.1, h.2.1, fun r => within_bind hf (h.2.2 r)⟩

theorem within_sizeC {d : Nat} {k : Nat → Code V α} (h : MayRead own i (.shape d)) (hk : ∀ s, Within own i (k s)) : Within own i (sizeC d k) := by
  unfold sizeC
  split
  · exact ⟨h, hk⟩
  · trivial

theorem within_refAt {d x : Nat} {k : Code V α} (h : MayRead own i (.shape d)) (hk : Within own i k) : Within own i (refAt d x k) :=
  within_sizeC h fun _ => within_sizeC h fun _ => by
    split
    · exact hk
    · trivial

theorem within_ite {c : Prop} [Decidable c] {a b : Code V α} (ha : Within own i a) (hb : Within own i b) : Within own i (if c then a else b) := by
  split
  · exact ha
  · exact hb

theorem within_collect (f : (j : Fin n) → Option (V j)) :
    Within own i (match collect f with | some r => .ret (some (.val r)) | none => .ub : Code V (Option (EOut V))) := by
  split <;> trivial

theorem within_readFields {d x : Nat} (h : MayRead own i (.shape d)) (hf : ∀ j, MayRead own i (.field d x j)) (js : List (Fin n)) :
    ∀ f, Within (V := V) own i (readFields d x js f) := by
  induction js with
  | nil => exact within_collect
  | cons j js ih => exact fun f => ⟨h, hf j, fun y => ih _⟩

theorem within_moveFields {moved : (j : Fin n) → V j → V j} {d x : Nat} (h : MayRead own i (.shape d)) (hf : ∀ j, MayWrite own i (.field d x j))
    (js : List (Fin n)) : ∀ f, Within (V := V) own i (moveFields moved d x js f) := by
  induction js with
  | nil => exact within_collect
  | cons j js ih => exact fun f => ⟨h, (hf j).read, fun y => ⟨h, hf j, ih _⟩⟩

theorem within_assignField {d x : Nat} {j : Fin n} {y : V j} {k : Code V (Option (EOut V))} (h : MayRead own i (.shape d))
    (hf : MayWrite own i (.field d x j)) (hk : Within own i k) : Within own i (assignField d x j y k) := by
  intro g
  cases g with
  | none => exact ⟨h, hf, hk⟩
  | some g => exact ⟨h, hf.read, fun y => ⟨h, hf, trivial⟩⟩

theorem within_assignFields {d x : Nat} {v : Rec V} (h : MayRead own i (.shape d)) (hf : ∀ j, MayWrite own i (.field d x j)) (js : List (Fin n)) :
    Within own i (assignFields d x v js) := by
  induction js with
  | nil => trivial
  | cons j js ih => exact within_assignField h (hf j) ih

theorem within_assignFieldsFrom {d x e k : Nat} (h : MayRead own i (.shape d)) (h' : MayRead own i (.shape e))
    (hf : ∀ j, MayWrite own i (.field d x j)) (hf' : ∀ j, MayRead own i (.field e k j)) (js : List (Fin n)) :
    Within (V := V) own i (assignFieldsFrom d x e k js) := by
  induction js with
  | nil => trivial
  | cons j js ih => exact ⟨h', hf' j, fun y => within_assignField h (hf j) ih⟩

theorem within_swapFields {d x e k : Nat} (h : MayRead own i (.shape d)) (h' : MayRead own i (.shape e))
    (hf : ∀ j, MayWrite own i (.field d x j)) (hf' : ∀ j, MayWrite own i (.field e k j)) (js : List (Fin n)) :
    Within (V := V) own i (swapFieldsC d x e k js) := by
  induction js with
  | nil => trivial
  | cons j js ih => exact ⟨h, (hf j).read, fun y => ⟨h', (hf' j).read, fun z => ⟨h, hf j, h', hf' j, ih⟩⟩⟩

theorem within_compareFields {cmp : (j : Fin n) → V j → V j → Cmp} {d x e k : Nat} {next : Cmp → Code V (Option (EOut V))}
    (h : MayRead own i (.shape d)) (h' : MayRead own i (.shape e)) (hf : ∀ j, MayRead own i (.field d x j)) (hf' : ∀ j, MayRead own i (.field e k j))
    (hn : ∀ c, Within own i (next c)) (js : List (Fin n)) : ∀ c, Within own i (compareFields cmp d x e k next js c) := by
  induction js with
  | nil => exact hn
  | cons j js ih => exact fun c => ⟨h, hf j, fun y => ⟨h', hf' j, fun z => within_ite (ih _) (hn _)⟩⟩

theorem within_equalFrom {cmp : (j : Fin n) → V j → V j → Cmp} {d e : Nat} (h : ∀ x : Part n, x.cont = d ∨ x.cont = e → MayRead own i x) (m : Nat) :
    ∀ x, Within own i (equalFromC cmp d e x m) := by
  have hd : MayRead own i (.shape d) := h _ (.inl rfl)
  have he : MayRead own i (.shape e) := h _ (.inr rfl)
  induction m with
  | zero => intro x; trivial
  | succ m ih => exact fun x => within_refAt hd (within_refAt he (within_compareFields hd he (fun j => h _ (.inl rfl)) (fun j => h _ (.inr rfl))
      (fun c => by split <;> first | exact ih _ | trivial) _ _))

/-- The accesses of an operation are to the parts it reads and writes. -/
theorem within_op (F : Fields V) (o : TOp V) (hr : ∀ x, o.reads x → MayRead own i x) (hw : ∀ x, o.writes x → MayWrite own i x) :
    Within own i (o.code F) := by
  cases o with
  | size d => exact within_sizeC (hr _ rfl) fun _ => trivial
  | getField d x j => exact within_refAt (hr _ (.inl rfl)) ⟨hr _ (.inl rfl), hr _ (.inr rfl), fun _ => trivial⟩
  | setField d x j y => exact within_refAt (hr _ rfl) ⟨hr _ rfl, hw _ rfl, trivial⟩
  | spanGet d x j => exact ⟨hr _ (.inl rfl), fun s => within_ite (c := x < s) ⟨hr _ (.inl rfl), hr _ (.inr rfl), fun _ => trivial⟩ trivial⟩
  | spanSet d x j y => exact ⟨hr _ rfl, fun s => within_ite (c := x < s) ⟨hr _ rfl, hw _ rfl, trivial⟩ trivial⟩
  | getElem d x => exact within_refAt (hr _ (.inl rfl)) (within_readFields (hr _ (.inl rfl)) (fun j => hr _ (.inr ⟨j, rfl⟩)) _ _)
  | assignElem d x v => exact within_refAt (hr _ rfl) (within_assignFields (hr _ rfl) (fun j => hw _ ⟨j, rfl⟩) _)
  | assignRef d x e k => exact within_refAt (hr _ (.inl rfl)) (within_refAt (hr _ (.inr (.inl rfl)))
      (within_assignFieldsFrom (hr _ (.inl rfl)) (hr _ (.inr (.inl rfl))) (fun j => hw _ ⟨j, rfl⟩) (fun j => hr _ (.inr (.inr ⟨j, rfl⟩))) _))
  | swapRef d x e k => exact within_refAt (hr _ (.inl rfl)) (within_refAt (hr _ (.inr rfl))
      (within_swapFields (hr _ (.inl rfl)) (hr _ (.inr rfl)) (fun j => hw _ ⟨j, .inl rfl⟩) (fun j => hw _ ⟨j, .inr rfl⟩) _))
  | iterMove d x => exact within_refAt (hr _ rfl) (within_moveFields (hr _ rfl) (fun j => hw _ ⟨j, rfl⟩) _ _)
  | compare d x e k => exact within_refAt (hr _ (.inl rfl)) (within_refAt (hr _ (.inr (.inl rfl)))
      (within_compareFields (hr _ (.inl rfl)) (hr _ (.inr (.inl rfl))) (fun j => hr _ (.inr (.inr ⟨j, .inl rfl⟩))) (fun j => hr _ (.inr (.inr ⟨j, .inr rfl⟩)))
        (next := fun c => .ret (some (.order c))) (fun _ => trivial) _ _))
  | equal d e => exact within_sizeC (hr _ (.inl rfl)) fun s => within_sizeC (hr _ (.inr rfl)) fun t => within_ite (within_equalFrom hr _ _) trivial
  | whole op => exact ⟨hr, hw, fun _ => trivial⟩

theorem within_prog (F : Fields V) : ∀ {p : Prog V α}, p.Uses own i → Within own i (p.code F)
  | .done _, _ => trivial
  | .op o _, h => within_bind (fun r => within_prog F (h.2.2 r)) (within_op F o h.1 h.2.1)

end

/-! ### steps -/

/-- What thread `i` may read is the same. -/
def Agree (own : Owner n) (i : Nat) (v u : Vecs V) : Prop := ∀ x, MayRead own i x → Same v u x

theorem Same.refl (v : Vecs V) : ∀ x : Part n, Same v v x
  | .shape _ => ⟨rfl, fun _ => rfl⟩
  | .field _ _ _ => rfl

theorem Same.symm {v u : Vecs V} : ∀ {x : Part n}, Same v u x → Same u v x
  | .shape _, h => ⟨h.1.symm, fun j => (h.2 j).symm⟩
  | .field _ _ _, h => Eq.symm h

theorem Same.trans {v u w : Vecs V} : ∀ {x : Part n}, Same v u x → Same u w x → Same v w x
  | .shape _, h, h' => ⟨h.1.trans h'.1, fun j => (h.2 j).trans (h'.2 j)⟩
  | .field _ _ _, h, h' => Eq.trans (α := Option _) h h'

/-- A container all parts of which are the same. -/
theorem cont_eq {v u : Vecs V} {d : Nat} (h : ∀ x : Part n, x.cont = d → Same v u x) : v d = u d := by
  have hs := h (.shape d) rfl
  cases e : v d with
  | none => cases e' : u d with
    | none => rfl
    | some q => have := hs.1; simp [e, e'] at this
  | some p => cases e' : u d with
    | none => have := hs.1; simp [e, e'] at this
    | some q =>
      congr 1
      funext j
      have h1 := hs.2 j
      simp only [shapeOf, e, e', Option.map_some, Option.some.injEq, Prod.mk.injEq] at h1
      have h2 : (p j).data = (q j).data := by
        apply List.ext_getElem? ; intro x
        have := h (.field d x j) rfl
        simpa only [Same, fieldOf, e, e', Option.bind_some] using this
      cases hp : p j; cases hq : q j
      rw [hp, hq] at h1 h2
      simp only at h1 h2
      rw [h2, h1.2.1, h1.2.2]

theorem same_of_eq {v u : Vecs V} {d : Nat} (h : v d = u d) : ∀ x : Part n, x.cont = d → Same v u x
  | .shape _, e => by simp only [Part.cont] at e; subst e; exact ⟨by rw [h], fun j => by simp only [shapeOf, h]⟩
  | .field _ _ _, e => by simp only [Part.cont] at e; subst e; simp only [Same, fieldOf, h]

theorem setP_same (p : Parts V) (j : Fin n) (c : Col (V j)) : setP p j c j = c := by simp [setP]

theorem setP_other {p : Parts V} {j k : Fin n} {c : Col (V j)} (h : k ≠ j) : setP p j c k = p k := by simp [setP, h]

/-- A write changes this field only. -/
theorem write_same {v : Vecs V} {d : Nat} {p : Parts V} (hv : v d = some p) (j : Fin n) (x : Nat) (y : V j) :
    ∀ q : Part n, q ≠ .field d x j → Same v (upd v d (some (setP p j (Col.set x y (p j))))) q
  | .shape e, _ => by
    by_cases he : e = d
    · subst he
      refine ⟨by simp [upd, hv], fun k => ?_⟩
      simp only [shapeOf, upd, if_true, hv, Option.map_some]
      by_cases hk : k = j
      · subst hk; simp [setP_same, Col.set]
      · rw [setP_other hk]
    · refine ⟨by simp [upd, he], fun k => ?_⟩
      simp [shapeOf, upd, he]
  | .field e z k, hq => by
    by_cases he : e = d
    · subst he
      simp only [Same, fieldOf, upd, if_true, hv, Option.bind_some]
      by_cases hk : k = j
      · subst hk
        rw [setP_same]
        simp only [Col.set]
        rw [List.getElem?_set]
        split
        · rename_i e; subst e; exact absurd rfl hq
        · rfl
      · rw [setP_other hk]
    · simp [Same, fieldOf, upd, he]

theorem write_field {v : Vecs V} {d : Nat} {p : Parts V} {j : Fin n} {x : Nat} {y : V j} (hx : x < (p j).data.length) :
    fieldOf (upd v d (some (setP p j (Col.set x y (p j))))) d x j = some y := by
  simp [fieldOf, upd, setP_same, Col.set, hx]

section
variable {own : Owner n} {i : Nat}

/-- A step depends only on what the thread may read, and changes only what it may write. -/
theorem step_local {v u v' : Vecs V} {c c' : Code V α} {ch : Choice V} (hc : Within own i c) (ha : Agree own i v u) (hs : step ch v c = some (v', c')) :
    (∃ u', step ch u c = some (u', c') ∧ Agree own i v' u') ∧ Within own i c' ∧ ∀ x, ¬ MayWrite own i x → Same v v' x := by
  cases c with
  | ret a => cases hs
  | ub => cases hs
  | col d j k =>
    have hsh := ha _ hc.1
    simp only [step] at hs ⊢
    cases e : v d with
    | none =>
      have : u d = none := by have := hsh.1; rw [e] at this; cases e' : u d <;> simp_all
      rw [e] at hs; cases hs
      exact ⟨⟨u, by rw [this], ha⟩, trivial, fun x _ => Same.refl _ x⟩
    | some p =>
      obtain ⟨q, e'⟩ : ∃ q, u d = some q := by have := hsh.1; rw [e] at this; cases e' : u d <;> simp_all
      have hl := hsh.2 j
      simp only [shapeOf, e, e', Option.map_some, Option.some.injEq, Prod.mk.injEq] at hl
      rw [e] at hs; cases hs
      exact ⟨⟨u, by rw [e', hl.1], ha⟩, hc.2 _, fun x _ => Same.refl _ x⟩
  | read d j x k =>
    have hf : fieldOf v d x j = fieldOf u d x j := ha _ hc.2.1
    unfold fieldOf at hf
    simp only [step] at hs ⊢
    rw [← hf]
    cases e : (v d).bind fun p => (p j).data[x]? with
    | none => rw [e] at hs; cases hs; exact ⟨⟨u, rfl, ha⟩, trivial, fun x _ => Same.refl _ x⟩
    | some y => rw [e] at hs; cases hs; exact ⟨⟨u, rfl, ha⟩, hc.2.2 _, fun x _ => Same.refl _ x⟩
  | write d j x y k =>
    have hsh := ha _ hc.1
    simp only [step] at hs ⊢
    cases e : v d with
    | none =>
      have : u d = none := by have := hsh.1; rw [e] at this; cases e' : u d <;> simp_all
      rw [e] at hs; cases hs
      exact ⟨⟨u, by rw [this], ha⟩, trivial, fun x _ => Same.refl _ x⟩
    | some p =>
      obtain ⟨q, e'⟩ : ∃ q, u d = some q := by have := hsh.1; rw [e] at this; cases e' : u d <;> simp_all
      have hl := hsh.2 j
      simp only [shapeOf, e, e', Option.map_some, Option.some.injEq, Prod.mk.injEq] at hl
      rw [e] at hs; simp only at hs
      by_cases hx : x < (p j).data.length
      · rw [if_pos hx] at hs; cases hs
        refine ⟨⟨_, by rw [e']; simp only; rw [if_pos (hl.1 ▸ hx)], fun z hz => ?_⟩, hc.2.2, fun z hz => ?_⟩
        · by_cases hzz : z = .field d x j
          · subst hzz
            simp only [Same]
            rw [write_field hx, write_field (hl.1 ▸ hx)]
          · exact ((write_same e j x y z hzz).symm.trans (ha z hz)).trans (write_same e' j x y z hzz)
        · exact write_same e j x y z fun h => hz (h ▸ hc.2.1)
      · rw [if_neg hx] at hs; cases hs
        exact ⟨⟨u, by rw [e']; simp only; rw [if_neg (hl.1 ▸ hx)], ha⟩, trivial, fun x _ => Same.refl _ x⟩
  | call j k =>
    simp only [step] at hs ⊢
    cases hs
    exact ⟨⟨u, rfl, ha⟩, hc _, fun x _ => Same.refl _ x⟩
  | whole op k =>
    simp only [step] at hs ⊢
    have hA : ∀ d, d ∈ wholeReads op ++ wholeWrites op → v d = u d := fun d hd => cont_eq fun x hx => ha x (by
      rcases List.mem_append.1 hd with h | h
      · exact hc.1 x (hx ▸ h)
      · exact (hc.2.1 x (hx ▸ h)).read)
    have hl := exec_local ch.env op v u ch.tick hA
    have key : ∀ w w' : World V, (∀ d, d ∈ wholeReads op ++ wholeWrites op → w.vecs d = w'.vecs d) →
        (∀ d, ¬ d ∈ wholeWrites op → w.vecs d = v d ∧ w'.vecs d = u d) → Agree own i w.vecs w'.vecs ∧ ∀ x, ¬ MayWrite own i x → Same v w.vecs x := by
      intro w w' h1 h2
      refine ⟨fun x hx => ?_, fun x hx => ?_⟩
      · by_cases h : x.cont ∈ wholeWrites op
        · exact same_of_eq (h1 _ (List.mem_append.2 (.inr h))) x rfl
        · exact ((same_of_eq (h2 _ h).1 x rfl).trans (ha x hx)).trans (same_of_eq (h2 _ h).2 x rfl).symm
      · by_cases h : x.cont ∈ wholeWrites op
        · exact absurd (hc.2.1 x h) hx
        · exact (same_of_eq (h2 _ h).1 x rfl).symm
    cases e : exec ch.env op ⟨v, ch.tick⟩ with
    | ok a w =>
      cases e' : exec ch.env op ⟨u, ch.tick⟩ with
      | ok a' w' =>
        rw [e, e'] at hl
        obtain ⟨rfl, _, h1, h2⟩ := hl
        rw [e] at hs; cases hs
        exact ⟨⟨_, rfl, (key w w' h1 h2).1⟩, hc.2.2 _, (key w w' h1 h2).2⟩
      | exn w' => rw [e, e'] at hl; exact hl.elim
      | ub => rw [e, e'] at hl; exact hl.elim
    | exn w =>
      cases e' : exec ch.env op ⟨u, ch.tick⟩ with
      | ok a' w' => rw [e, e'] at hl; exact hl.elim
      | exn w' =>
        rw [e, e'] at hl
        obtain ⟨_, h1, h2⟩ := hl
        rw [e] at hs; cases hs
        exact ⟨⟨_, rfl, (key w w' h1 h2).1⟩, hc.2.2 _, (key w w' h1 h2).2⟩
      | ub => rw [e, e'] at hl; exact hl.elim
    | ub =>
      cases e' : exec ch.env op ⟨u, ch.tick⟩ with
      | ok a' w' => rw [e, e'] at hl; exact hl.elim
      | exn w' => rw [e, e'] at hl; exact hl.elim
      | ub =>
        rw [e] at hs; cases hs
        exact ⟨⟨_, rfl, ha⟩, trivial, fun x _ => Same.refl _ x⟩

end

/-- The invariant of interleavings. -/
theorem interleaved_inv {own : Owner n} {v v' : Vecs V} {cs cs' : Nat → Code V α} {s : List (Nat × Choice V)} (hc : ∀ i, Within own i (cs i))
    (h : Interleaved v cs s v' cs') :
    (∀ i, Within own i (cs' i) ∧ ∃ u, Alone v (cs i) (choicesOf s i) u (cs' i) ∧ Agree own i v' u) ∧ ∀ x, own x = none → Same v v' x := by
  induction h with
  | refl => exact ⟨fun i => ⟨hc i, v, .refl _ _, fun x _ => Same.refl _ x⟩, fun x _ => Same.refl _ x⟩
  | @step s v' cs' i ch v'' c h hs ih =>
    obtain ⟨ih1, ih2⟩ := ih
    obtain ⟨hw, u, hal, hag⟩ := ih1 i
    obtain ⟨⟨u', hu', hag'⟩, hw', hfr⟩ := step_local hw hag hs
    refine ⟨fun k => ?_, fun x hx => (ih2 x hx).trans (hfr x fun h => by rw [MayWrite, hx] at h; cases h)⟩
    by_cases hk : k = i
    · subst hk
      refine ⟨by simpa [set] using hw', u', ?_, hag'⟩
      simp only [choicesOf, List.filter_append, List.map_append, set, if_true]
      simpa [choicesOf] using Alone.step hal hu'
    · obtain ⟨hwk, uk, halk, hagk⟩ := ih1 k
      refine ⟨by simpa [set, hk] using hwk, uk, ?_, fun x hx => ?_⟩
      · have : (i == k) = false := by simpa using fun h => hk h.symm
        simpa [choicesOf, List.filter_append, set, hk, this] using halk
      · refine ((hfr x fun h => ?_).symm).trans (hagk x hx)
        rcases hx with hx | hx <;> rw [MayWrite, hx] at h <;> cases h
        exact hk rfl

/-! ### C117 -/

theorem fieldLoc_inj (isBool : Fin n → Bool) {d d' i i' : Nat} {j j' : Fin n} (h : fieldLoc isBool d j i = fieldLoc isBool d' j' i') :
    d = d' ∧ j = j' ∧ i = i' := by
  have : ∀ b, (containerFor b).packed b = false := by intro b; cases b <;> rfl
  simp only [fieldLoc, this, Bool.false_eq_true, if_false, Loc.cell.injEq] at h
  exact h

theorem fieldLoc_hdr (isBool : Fin n → Bool) {d d' i : Nat} {j j' : Fin n} : fieldLoc isBool d j i ≠ .hdr d' j' := by
  unfold fieldLoc
  split <;> simp

/-- The part an object in memory belongs to. -/
def PartOf (isBool : Fin n → Bool) (l : Loc n) (x : Part n) : Prop :=
  match x with
  | .shape d => ∃ j, l = .hdr d j
  | .field d i j => l = fieldLoc isBool d j i

theorem PartOf.unique {isBool : Fin n → Bool} {l : Loc n} : ∀ {x y : Part n}, PartOf isBool l x → PartOf isBool l y → x = y
  | .shape _, .shape _, ⟨_, h⟩, ⟨_, h'⟩ => by rw [h] at h'; cases h'; rfl
  | .shape _, .field _ _ _, ⟨_, h⟩, h' => absurd (h'.symm.trans h) (fieldLoc_hdr isBool)
  | .field _ _ _, .shape _, h, ⟨_, h'⟩ => absurd (h.symm.trans h') (fieldLoc_hdr isBool)
  | .field _ _ _, .field _ _ _, h, h' => by obtain ⟨rfl, rfl, rfl⟩ := fieldLoc_inj isBool (h.symm.trans h'); rfl

theorem writes_part {own : Owner n} {i : Nat} {isBool : Fin n → Bool} {c : Code V α} (hc : Within own i c) {l : Loc n} (h : c.Writes isBool l) :
    ∃ x, PartOf isBool l x ∧ MayWrite own i x := by
  cases c with
  | write d j x y k => exact ⟨.field d x j, h, hc.2.1⟩
  | whole op k =>
    obtain ⟨d, hd, j, h | ⟨x, h⟩⟩ := h
    · exact ⟨.shape d, ⟨j, h⟩, hc.2.1 (.shape d) hd⟩
    · exact ⟨.field d x j, h, hc.2.1 (.field d x j) hd⟩
  | _ => exact h.elim

theorem reads_part {own : Owner n} {i : Nat} {isBool : Fin n → Bool} {c : Code V α} (hc : Within own i c) {l : Loc n} (h : c.Reads isBool l) :
    ∃ x, PartOf isBool l x ∧ MayRead own i x := by
  cases c with
  | col d j k => exact ⟨.shape d, ⟨j, h⟩, hc.1⟩
  | read d j x k =>
    rcases h with h | h
    · exact ⟨.shape d, ⟨j, h⟩, hc.1⟩
    · exact ⟨.field d x j, h, hc.2.1⟩
  | write d j x y k => exact ⟨.shape d, ⟨j, h⟩, hc.1⟩
  | whole op k =>
    obtain ⟨d, hd, j, h | ⟨x, h⟩⟩ := h
    · refine ⟨.shape d, ⟨j, h⟩, ?_⟩
      rcases List.mem_append.1 hd with hd | hd
      · exact hc.1 (.shape d) hd
      · exact (hc.2.1 (.shape d) hd).read
    · refine ⟨.field d x j, h, ?_⟩
      rcases List.mem_append.1 hd with hd | hd
      · exact hc.1 (.field d x j) hd
      · exact (hc.2.1 (.field d x j) hd).read
  | ret a => exact h.elim
  | ub => exact h.elim
  | call j k => exact h.elim

/-- C117: threads that keep to an ownership of elements, fields and containers never access the same object in memory at the same time, unless both only
read it, whatever the types of the fields are. -/
theorem C117_no_race (F : Fields V) (isBool : Fin n → Bool) {own : Owner n} {P : Nat → Prog V α} (hP : ∀ i, (P i).Uses own i) {v v' : Vecs V}
    {s : List (Nat × Choice V)} {cs : Nat → Code V α} (h : Interleaved v (fun i => (P i).code F) s v' cs) : ¬ Race isBool cs := by
  rintro ⟨i, k, l, hik, hw, hr⟩
  have hi := (interleaved_inv (fun i => within_prog F (hP i)) h).1
  obtain ⟨x, hx, hxw⟩ := writes_part (hi i).1 hw
  have : ∃ y, PartOf isBool l y ∧ MayRead own k y := by
    rcases hr with hr | hr
    · exact reads_part (hi k).1 hr
    · obtain ⟨y, hy, hyw⟩ := writes_part (hi k).1 hr
      exact ⟨y, hy, hyw.read⟩
  obtain ⟨y, hy, hyr⟩ := this
  obtain rfl := hx.unique hy
  rcases hyr with hyr | hyr <;> rw [MayWrite, hyr] at hxw <;> cases hxw
  exact hik rfl

/-- C117: in every interleaving each thread does what it does alone, with the same results (the code that is left is the same, and also the result if it has
finished), and the parts it may use are as it leaves them alone. Parts that belong to no thread do not change. -/
theorem C117_alone (F : Fields V) {own : Owner n} {P : Nat → Prog V α} (hP : ∀ i, (P i).Uses own i) {v v' : Vecs V}
    {s : List (Nat × Choice V)} {cs : Nat → Code V α} (h : Interleaved v (fun i => (P i).code F) s v' cs) :
    (∀ i, ∃ u, Alone v ((P i).code F) (choicesOf s i) u (cs i) ∧ ∀ x, MayRead own i x → Same v' u x) ∧ ∀ x, own x = none → Same v v' x := by
  obtain ⟨h1, h2⟩ := interleaved_inv (fun i => within_prog F (hP i)) h
  exact ⟨fun i => (h1 i).2, h2⟩

/-- C117: no undefined behaviour, if there is none in any thread alone. -/
theorem C117_defined (F : Fields V) {own : Owner n} {P : Nat → Prog V α} (hP : ∀ i, (P i).Uses own i) {v v' : Vecs V}
    {s : List (Nat × Choice V)} {cs : Nat → Code V α} (h : Interleaved v (fun i => (P i).code F) s v' cs) (i : Nat)
    (hi : ∀ chs u, ¬ Alone v ((P i).code F) chs u .ub) : cs i ≠ .ub := by
  obtain ⟨u, hu, _⟩ := (C117_alone F hP h).1 i
  intro e
  rw [e] at hu
  exact hi _ _ hu

end AnyAny.DpvFine
