import Verif.Spec.AnyHist
import Verif.Lemmas.TypeList
namespace AnyAny.Mem
open AnyAny.TypeList

/-! Evaluation of the monad -/

@[simp] theorem bind_apply {α β} (m : M α) (f : α → M β) (w : World) :
    (m >>= f) w = match m w with
      | .ok a w' => f a w'
      | .exn w' => .exn w'
      | .ub => .ub
      | .term => .term := rfl

@[simp] theorem pure_apply {α} (a : α) (w : World) : (pure a : M α) w = .ok a w := rfl

@[simp] theorem ite_apply' {α} (c : Prop) [Decidable c] (x y : M α) (w : World) :
    (if c then x else y) w = if c then x w else y w := by split <;> rfl

@[simp] theorem ub_apply {α} (w : World) : (ub : M α) w = .ub := rfl
@[simp] theorem getW_apply (w : World) : getW w = .ok w w := rfl
@[simp] theorem upd_same {β} (f : Nat → β) (k : Nat) (v : β) : upd f k v k = v := by simp [upd]
theorem upd_other {β} (f : Nat → β) (k x : Nat) (v : β) (h : x ≠ k) : upd f k v x = f x := by
  simp [upd, h]
theorem upd_apply {β} (f : Nat → β) (k x : Nat) (v : β) : upd f k v x = if x = k then v else f x := rfl

@[simp] theorem upd_upd {β} (f : Nat → β) (k : Nat) (u v : β) : upd (upd f k u) k v = upd f k v := by
  funext x; simp only [upd]; split <;> rfl

theorem upd_self {β} {f : Nat → β} {k : Nat} {v : β} (h : f k = v) : upd f k v = f := by
  funext x; simp only [upd]; split
  · subst_vars; rfl
  · rfl

theorem getAny_some {w : World} {a : Nat} {s : AnySt} (h : w.anys a = some s) :
    getAny a w = .ok s w := by simp [getAny, h]

@[simp] theorem setAny_apply (a : Nat) (s : AnySt) (w : World) :
    setAny a s w = .ok () { w with anys := upd w.anys a (some s) } := rfl

theorem modifyAny_some {w : World} {a : Nat} {s : AnySt} (f : AnySt → AnySt)
    (h : w.anys a = some s) :
    modifyAny a f w = .ok () { w with anys := upd w.anys a (some (f s)) } := by
  simp [modifyAny, getAny_some h]

/-! The preservation lemma -/

/-- A change of the world confined to the any objects in `S`, the blocks they own, the objects they
contain, and fresh blocks and objects, keeps the world well-formed, if the changed any objects are
fine and account for all their blocks and objects. -/
structure Change (cfg : Cfg) (S : Nat → Prop) (w w' : World) : Prop where
  anyOut : ∀ c, ¬ S c → w'.anys c = w.anys c
  blkOut : ∀ b, b < w.nextBlk → (∀ c s, S c → w.anys c = some s → s.vp ≠ .blk b) →
    w'.blks b = w.blks b ∧ w'.frees b = w.frees b
  objOut : ∀ i, i < w.nextObj → (∀ c o, S c → content w c = some o → o.id ≠ i) →
    w'.dtors i = w.dtors i
  born : ∀ i, i < w.nextObj → w'.born i = w.born i
  blkMono : w.nextBlk ≤ w'.nextBlk
  objMono : w.nextObj ≤ w'.nextObj
  ok : ∀ c s, S c → w'.anys c = some s → AnyOk cfg w' c s
  vpFrom : ∀ c s b, S c → w'.anys c = some s → s.vp = .blk b →
    (∃ d t, S d ∧ w.anys d = some t ∧ t.vp = .blk b) ∨ w.nextBlk ≤ b
  vpInj : ∀ c s d t b, S c → S d → w'.anys c = some s → w'.anys d = some t → s.vp = .blk b →
    t.vp = .blk b → c = d
  objFrom : ∀ c o, S c → content w' c = some o →
    (∃ d p, S d ∧ content w d = some p ∧ p.id = o.id) ∨ w.nextObj ≤ o.id
  objInj : ∀ c o d p, S c → S d → content w' c = some o → content w' d = some p → o.id = p.id → c = d
  blkAcc : ∀ b, b < w'.nextBlk →
    ((∃ c s, S c ∧ w.anys c = some s ∧ s.vp = .blk b) ∨ w.nextBlk ≤ b) →
    (w'.blks b = none ∧ w'.frees b = 1) ∨
      (w'.frees b = 0 ∧ ∃ c s, S c ∧ w'.anys c = some s ∧ s.vp = .blk b)
  blkBeyond : ∀ b, w'.nextBlk ≤ b → w'.blks b = none ∧ w'.frees b = 0
  objAcc : ∀ i, i < w'.nextObj → (cfg.ty (w'.born i)).trivDestr = false →
    ((∃ c o, S c ∧ content w c = some o ∧ o.id = i) ∨ w.nextObj ≤ i) →
    w'.dtors i = 1 ∨ (w'.dtors i = 0 ∧ ∃ c o, S c ∧ content w' c = some o ∧ o.id = i)
  objBeyond : ∀ i, w'.nextObj ≤ i → w'.dtors i = 0
  objOnce : ∀ i, i < w'.nextObj →
    ((∃ c o, S c ∧ content w c = some o ∧ o.id = i) ∨ w.nextObj ≤ i) → w'.dtors i ≤ 1

variable {cfg : Cfg}

theorem blk_lt {w : World} (h : WF cfg w) {b : Nat} {k : Blk} (hb : w.blks b = some k) :
    b < w.nextBlk := by
  apply Classical.byContradiction
  intro hn
  have := (h.beyondBlk b (by omega)).1
  rw [hb] at this; cases this

theorem vp_blk {w : World} (h : WF cfg w) {a b : Nat} {s : AnySt} (ha : w.anys a = some s)
    (hv : s.vp = .blk b) : ∃ k, w.blks b = some k ∧ s.buf = .size k.size ∧ allocEq cfg k.al s.al = true := by
  rcases (h.any a s ha).shape with h1 | ⟨b', k, h1, h2, h3, h4⟩
  · rw [h1] at hv; cases hv
  · rw [h1] at hv; injection hv with hv; subst hv; exact ⟨k, h2, h3, h4⟩

theorem vp_cases {w : World} (h : WF cfg w) {a : Nat} {s : AnySt} (ha : w.anys a = some s) :
    s.vp = .data a ∨ ∃ b k, s.vp = .blk b ∧ w.blks b = some k ∧ s.buf = .size k.size ∧
      allocEq cfg k.al s.al = true := (h.any a s ha).shape

/-- Outside `S` the stored objects are the same. -/
theorem Change.cell_eq {S : Nat → Prop} {w w' : World} (h : WF cfg w) (C : Change cfg S w w')
    {c : Nat} {s : AnySt} (hc : ¬ S c) (hs : w.anys c = some s) :
    cellAt w' s.vp = cellAt w s.vp ∧ ∀ b, s.vp = .blk b → w'.blks b = w.blks b := by
  rcases vp_cases h hs with hv | ⟨b, k, hv, hk, _, _⟩
  · rw [hv]; simp only [cellAt, C.anyOut c hc, true_and]; intro b hb; cases hb
  · have hb : w'.blks b = w.blks b := by
      refine (C.blkOut b (blk_lt h hk) ?_).1
      intro d t hd ht htv
      have := h.blkInj c s d t b hs ht hv htv
      subst this; exact hc hd
    rw [hv]; simp only [cellAt, hb, true_and]
    intro b' hb'; injection hb' with hb'; subst hb'; exact hb

theorem Change.content_eq {S : Nat → Prop} {w w' : World} (h : WF cfg w) (C : Change cfg S w w')
    {c : Nat} (hc : ¬ S c) : content w' c = content w c := by
  unfold content
  rw [C.anyOut c hc]
  cases hs : w.anys c with
  | none => rfl
  | some s =>
    simp only [Option.bind_some]
    rw [(C.cell_eq h hc hs).1]

theorem Change.memOf_eq {S : Nat → Prop} {w w' : World} (h : WF cfg w) (C : Change cfg S w w')
    {c : Nat} (hc : ¬ S c) : memOf w' c = memOf w c := by
  unfold memOf
  rw [C.anyOut c hc]
  cases hs : w.anys c with
  | none => rfl
  | some s =>
    simp only [Option.bind_some]
    cases hv : s.vp with
    | data d => rfl
    | blk b => simp only []; rw [(C.cell_eq h hc hs).2 b hv]

theorem Change.snap_eq {S : Nat → Prop} {w w' : World} (h : WF cfg w) (C : Change cfg S w w')
    {c : Nat} (hc : ¬ S c) : snap w' c = snap w c := by
  unfold snap
  rw [C.anyOut c hc, C.content_eq h hc, C.memOf_eq h hc]

theorem content_full {w : World} (h : WF cfg w) {a : Nat} {o : Obj} (hc : content w a = some o) :
    ∃ s v, w.anys a = some s ∧ s.vt = some v ∧ cellAt w s.vp = some o ∧ o.ty = v.ty ∧ VtOk s.ms v ∧
      o.id < w.nextObj ∧ w.born o.id = o.ty ∧ w.dtors o.id = 0 ∧
      (s.vp = .data a → fits cfg o.ty = true) ∧
      (∀ b k, s.vp = .blk b → w.blks b = some k → (cfg.ty o.ty).size ≤ k.size) := by
  unfold content at hc
  cases hs : w.anys a with
  | none => simp [hs] at hc
  | some s =>
    simp only [hs, Option.bind_some] at hc
    cases hv : s.vt with
    | none => simp [hv] at hc
    | some v =>
      simp only [hv, Option.isSome_some, if_true] at hc
      obtain ⟨o', h1, h2⟩ := (h.any a s hs).full v hv
      rw [hc] at h1; injection h1 with h1; subst h1
      exact ⟨s, v, rfl, hv, hc, h2⟩

theorem Change.wf {S : Nat → Prop} {w w' : World} (h : WF cfg w) (C : Change cfg S w w') :
    WF cfg w' := by
  have anyOld : ∀ c s, ¬ S c → w'.anys c = some s → w.anys c = some s := by
    intro c s hc hs; rw [C.anyOut c hc] at hs; exact hs
  refine
    { any := ?_, blkInj := ?_, objInj := ?_, owned := ?_, freed := ?_, beyondBlk := C.blkBeyond,
      destroyed := ?_, beyondObj := C.objBeyond, once := ?_ }
  · intro a s hs
    by_cases hS : S a
    · exact C.ok a s hS hs
    · have hs0 := anyOld a s hS hs
      have A := h.any a s hs0
      have E := C.cell_eq h hS hs0
      refine ⟨A.destroyIn, ?_, ?_, ?_⟩
      · rcases A.shape with h1 | ⟨b, k, h1, h2, h3⟩
        · exact Or.inl h1
        · exact Or.inr ⟨b, k, h1, by rw [E.2 b h1]; exact h2, h3⟩
      · intro v hv
        obtain ⟨o, h1, h2, h3, h4, h5, h6, h7, h8⟩ := A.full v hv
        have hco : content w a = some o := by simp [content, hs0, hv, h1]
        refine ⟨o, by rw [E.1]; exact h1, h2, h3, Nat.lt_of_lt_of_le h4 C.objMono,
          by rw [C.born _ h4]; exact h5, ?_, h7, ?_⟩
        · rw [C.objOut o.id h4]
          · exact h6
          · intro c p hc hp he
            have := h.objInj c a p o hp hco he
            subst this; exact hS hc
        · intro b k hb hk
          rw [E.2 b hb] at hk; exact h8 b k hb hk
      · intro hv; rw [E.1]; exact A.empty hv
  · intro a s c t b hs ht hsv htv
    by_cases hSa : S a <;> by_cases hSc : S c
    · exact C.vpInj a s c t b hSa hSc hs ht hsv htv
    · have ht0 := anyOld c t hSc ht
      obtain ⟨k, hk, _⟩ := vp_blk h ht0 htv
      rcases C.vpFrom a s b hSa hs hsv with ⟨d, u, hd, hu, huv⟩ | hge
      · have := h.blkInj c t d u b ht0 hu htv huv
        subst this; exact absurd hd hSc
      · have := blk_lt h hk; omega
    · have hs0 := anyOld a s hSa hs
      obtain ⟨k, hk, _⟩ := vp_blk h hs0 hsv
      rcases C.vpFrom c t b hSc ht htv with ⟨d, u, hd, hu, huv⟩ | hge
      · have := h.blkInj a s d u b hs0 hu hsv huv
        subst this; exact absurd hd hSa
      · have := blk_lt h hk; omega
    · exact h.blkInj a s c t b (anyOld a s hSa hs) (anyOld c t hSc ht) hsv htv
  · intro a c o p ho hp he
    by_cases hSa : S a <;> by_cases hSc : S c
    · exact C.objInj a o c p hSa hSc ho hp he
    · rw [C.content_eq h hSc] at hp
      obtain ⟨_, _, _, _, _, _, _, hlt, _⟩ := content_full h hp
      rcases C.objFrom a o hSa ho with ⟨d, q, hd, hq, hqe⟩ | hge
      · have := h.objInj c d p q hp hq (by omega)
        subst this; exact absurd hd hSc
      · omega
    · rw [C.content_eq h hSa] at ho
      obtain ⟨_, _, _, _, _, _, _, hlt, _⟩ := content_full h ho
      rcases C.objFrom c p hSc hp with ⟨d, q, hd, hq, hqe⟩ | hge
      · have := h.objInj a d o q ho hq (by omega)
        subst this; exact absurd hd hSa
      · omega
    · rw [C.content_eq h hSa] at ho
      rw [C.content_eq h hSc] at hp
      exact h.objInj a c o p ho hp he
  · intro b k hk
    have hlt : b < w'.nextBlk := by
      apply Classical.byContradiction
      intro hn
      have := (C.blkBeyond b (by omega)).1
      rw [hk] at this; cases this
    by_cases hown : (∃ c s, S c ∧ w.anys c = some s ∧ s.vp = .blk b) ∨ w.nextBlk ≤ b
    · rcases C.blkAcc b hlt hown with ⟨h1, _⟩ | ⟨_, c, s, _, hs, hv⟩
      · rw [hk] at h1; cases h1
      · exact ⟨c, s, hs, hv⟩
    · have hno : ∀ c s, S c → w.anys c = some s → s.vp ≠ .blk b :=
        fun c s hc hs hv => hown (Or.inl ⟨c, s, hc, hs, hv⟩)
      have hb : b < w.nextBlk := by
        apply Classical.byContradiction; intro hn; exact hown (Or.inr (by omega))
      rw [(C.blkOut b hb hno).1] at hk
      obtain ⟨a, s, hs, hv⟩ := h.owned b k hk
      have hSa : ¬ S a := fun hS => hno a s hS hs hv
      exact ⟨a, s, by rw [C.anyOut a hSa]; exact hs, hv⟩
  · intro b hlt
    by_cases hown : (∃ c s, S c ∧ w.anys c = some s ∧ s.vp = .blk b) ∨ w.nextBlk ≤ b
    · rcases C.blkAcc b hlt hown with ⟨h1, h2⟩ | ⟨h1, c, s, hc, hs, hv⟩
      · simp [h1, h2]
      · rcases (C.ok c s hc hs).shape with h2 | ⟨b', k, h2, h3, _⟩
        · rw [h2] at hv; cases hv
        · rw [h2] at hv; injection hv with hv; subst hv; simp [h1, h3]
    · have hno : ∀ c s, S c → w.anys c = some s → s.vp ≠ .blk b :=
        fun c s hc hs hv => hown (Or.inl ⟨c, s, hc, hs, hv⟩)
      have hb : b < w.nextBlk := by
        apply Classical.byContradiction; intro hn; exact hown (Or.inr (by omega))
      obtain ⟨h1, h2⟩ := C.blkOut b hb hno
      rw [h1, h2]; exact h.freed b hb
  · intro i hlt htr
    by_cases hown : (∃ c o, S c ∧ content w c = some o ∧ o.id = i) ∨ w.nextObj ≤ i
    · rcases C.objAcc i hlt htr hown with h1 | ⟨h1, c, o, _, hc, he⟩
      · exact Or.inl h1
      · exact Or.inr ⟨h1, c, o, hc, he⟩
    · have hno : ∀ c o, S c → content w c = some o → o.id ≠ i :=
        fun c o hc ho he => hown (Or.inl ⟨c, o, hc, ho, he⟩)
      have hi : i < w.nextObj := by
        apply Classical.byContradiction; intro hn; exact hown (Or.inr (by omega))
      rw [C.objOut i hi hno]
      rw [C.born i hi] at htr
      rcases h.destroyed i hi htr with h1 | ⟨h1, a, o, ho, he⟩
      · exact Or.inl h1
      · have hSa : ¬ S a := fun hS => hno a o hS ho he
        exact Or.inr ⟨h1, a, o, by rw [C.content_eq h hSa]; exact ho, he⟩
  · intro i hlt
    by_cases hown : (∃ c o, S c ∧ content w c = some o ∧ o.id = i) ∨ w.nextObj ≤ i
    · exact C.objOnce i hlt hown
    · have hno : ∀ c o, S c → content w c = some o → o.id ≠ i :=
        fun c o hc ho he => hown (Or.inl ⟨c, o, hc, ho, he⟩)
      have hi : i < w.nextObj := by
        apply Classical.byContradiction; intro hn; exact hown (Or.inr (by omega))
      rw [C.objOut i hi hno]
      exact h.once i hi

theorem WF_init : WF cfg World.init := by
  constructor <;> intros <;> simp_all [World.init, content]

end AnyAny.Mem
