import Verif.Model.Layout
import Verif.Model.AnyMem
import Verif.Props.Vtable
/-
C102: where the members of an any and the values stored inside it lie; how large it is.
-/
namespace AnyAny.Layout
open AnyAny.Vtable (roundUp roundUp_ge roundUp_dvd roundUp_lt roundUp_self roundUp_add)

/-! ### What a user expects -/

/-- A power of two, as every alignment is. -/
def Pow2 (n : Nat) : Prop := ∃ k, n = 2 ^ k

/-- What holds on every platform. -/
structure Abi.Ok (abi : Abi) : Prop where
  ptr : Pow2 abi.ptr.align
  sizeT : Pow2 abi.sizeT.align
  maxAlign : Pow2 abi.maxAlign
  sizeTLe : abi.sizeT.align ≤ abi.maxAlign
  sizePos : 0 < abi.sizeT.size

/-- Two sets of bytes of an object have no byte in common. -/
def Member.Disjoint (m m' : Member) : Prop :=
  ∀ b, ¬ ((m.off ≤ b ∧ b < m.off + m.size) ∧ (m'.off ≤ b ∧ b < m'.off + m'.size))

/-- The members that an any has besides the union of the buffer and the size of the block. -/
def Obj.others (o : Obj) : List Member := [o.vtablePtr, o.valuePtr] ++ o.alloc.toList

/-! ### Lemmas -/

theorem Pow2.pos {n : Nat} (h : Pow2 n) : 0 < n := by obtain ⟨k, rfl⟩ := h; exact Nat.two_pow_pos k

theorem Pow2.dvd_of_le {a b : Nat} (ha : Pow2 a) (hb : Pow2 b) (h : a ≤ b) : a ∣ b := by
  obtain ⟨i, rfl⟩ := ha
  obtain ⟨j, rfl⟩ := hb
  exact Nat.pow_dvd_pow 2 ((Nat.pow_le_pow_iff_right (by omega)).1 h)

theorem Pow2.max {a b : Nat} (ha : Pow2 a) (hb : Pow2 b) : Pow2 (max a b) := by
  rcases Nat.le_total a b with h | h
  · rw [Nat.max_eq_right h]; exact hb
  · rw [Nat.max_eq_left h]; exact ha

theorem pow2_one : Pow2 1 := ⟨0, rfl⟩

theorem unionAlign_pow2 {abi : Abi} (ok : abi.Ok) (soos : Nat) : Pow2 (unionAlign abi soos) := by
  unfold unionAlign
  split
  · exact ok.sizeT.max ok.sizeT
  · exact ok.maxAlign.max ok.sizeT

theorem unionAlign_pos {abi : Abi} (ok : abi.Ok) {soos : Nat} (h : soos ≠ 0) : unionAlign abi soos = abi.maxAlign := by
  unfold unionAlign
  rw [if_neg h]
  exact Nat.max_eq_left ok.sizeTLe

theorem alloc_pow2 {alloc : Option Ty} (ha : ∀ t ∈ alloc, Pow2 t.align) :
    Pow2 (allocAlign alloc) := by
  cases alloc with
  | none => exact pow2_one
  | some t => exact ha t rfl

theorem objAlign_pow2 {abi : Abi} (ok : abi.Ok) {base : Ty} (hb : Pow2 base.align) (soos : Nat) {alloc : Option Ty}
    (ha : ∀ t ∈ alloc, Pow2 t.align) : Pow2 (objAlign abi base soos alloc) :=
  (hb.max ok.ptr).max ((unionAlign_pow2 ok soos).max (alloc_pow2 ha))

theorem unionSize_ge {abi : Abi} (ok : abi.Ok) (soos : Nat) : soos ≤ unionSize abi soos ∧ abi.sizeT.size ≤ unionSize abi soos := by
  have := roundUp_ge (max soos abi.sizeT.size) _ (unionAlign_pow2 ok soos).pos
  unfold unionSize
  omega

theorem unionOff_ge {abi : Abi} (ok : abi.Ok) (base : Ty) (soos : Nat) :
    (basicAny abi base soos none).valuePtr.off + abi.ptr.size ≤ unionOff abi base soos ∧
    (basicAny abi base soos none).vtablePtr.off + abi.ptr.size ≤ (basicAny abi base soos none).valuePtr.off :=
  ⟨roundUp_ge _ _ (unionAlign_pow2 ok soos).pos, roundUp_ge _ _ ok.ptr.pos⟩

theorem size_ge {abi : Abi} (ok : abi.Ok) {base : Ty} (hb : Pow2 base.align) (soos : Nat) {alloc : Option Ty}
    (ha : ∀ t ∈ alloc, Pow2 t.align) :
    unionOff abi base soos + unionSize abi soos ≤ (basicAny abi base soos alloc).size ∧
    ∀ m ∈ (basicAny abi base soos alloc).alloc,
      unionOff abi base soos + unionSize abi soos ≤ m.off ∧ m.off + m.size ≤ (basicAny abi base soos alloc).size := by
  have h := roundUp_ge (dataEnd abi base soos alloc) _ (objAlign_pow2 ok hb soos ha).pos
  cases alloc with
  | none => exact ⟨h, fun m hm => by cases hm⟩
  | some t =>
    have h2 := roundUp_ge (unionOff abi base soos + unionSize abi soos) t.align (ha t rfl).pos
    simp only [dataEnd, allocMember, Option.map_some] at h
    simp only [basicAny, dataEnd, allocMember, Option.map_some, Option.mem_def, Option.some.injEq]
    refine ⟨by omega, ?_⟩
    rintro m rfl
    exact ⟨h2, h⟩

/-! ### C102 -/

/-- C102: a value that an any stores inside itself lies inside the object, is suitably aligned wherever the object
lies, and has no byte in common with the other members, for every size of the buffer, every allocator and every data
of plugins. -/
theorem C102_value_inside (abi : Abi) (ok : abi.Ok) (base : Ty) (hb : Pow2 base.align) (soos : Nat) (alloc : Option Ty)
    (ha : ∀ t ∈ alloc, Pow2 t.align) (t : Ty) (ht : Pow2 t.align) (h0 : 0 < t.size) (hf : fits abi soos t = true)
    (p : Nat) (hp : (basicAny abi base soos alloc).align ∣ p) :
    t.align ∣ p + (basicAny abi base soos alloc).data.off ∧
    base.size ≤ (basicAny abi base soos alloc).data.off ∧
    (basicAny abi base soos alloc).data.off + t.size ≤ (basicAny abi base soos alloc).size ∧
    ∀ m ∈ (basicAny abi base soos alloc).others, m.Disjoint ⟨(basicAny abi base soos alloc).data.off, t.size⟩ := by
  simp only [fits, Bool.and_eq_true, decide_eq_true_eq] at hf
  have hs0 : soos ≠ 0 := by omega
  have hua := unionAlign_pos ok hs0
  have htu : t.align ∣ unionAlign abi soos := by rw [hua]; exact ht.dvd_of_le ok.maxAlign hf.1
  have huo : unionAlign abi soos ∣ objAlign abi base soos alloc :=
    (unionAlign_pow2 ok soos).dvd_of_le (objAlign_pow2 ok hb soos ha) (by unfold objAlign; omega)
  have hoff : unionAlign abi soos ∣ unionOff abi base soos := roundUp_dvd _ _
  have h1 := unionOff_ge ok base soos
  have h2 := size_ge ok hb soos ha
  have h3 := unionSize_ge ok soos
  have h4 := roundUp_ge base.size _ ok.ptr.pos
  refine ⟨Nat.dvd_add (Nat.dvd_trans (Nat.dvd_trans htu huo) hp) (Nat.dvd_trans htu hoff), ?_, ?_, ?_⟩
  · simp only [basicAny] at h1 ⊢; omega
  · have := h2.1
    show unionOff abi base soos + t.size ≤ _
    omega
  · intro m hm b hbb
    simp only [Obj.others, List.cons_append, List.nil_append, List.mem_cons, Option.mem_toList] at hm
    rcases hm with rfl | rfl | hm
    · simp only [basicAny] at h1 hbb; omega
    · simp only [basicAny] at h1 hbb; omega
    · have := (h2.2 m hm).1
      simp only [basicAny] at hbb; omega

/-- C102: the same of every type that the model of the operations stores inside the object (`Mem.fits`, which also asks
for a move constructor that does not throw). -/
theorem C102_stored_inside (abi : Abi) (ok : abi.Ok) (base : Ty) (hb : Pow2 base.align) (alloc : Option Ty)
    (ha : ∀ t ∈ alloc, Pow2 t.align) (cfg : Mem.Cfg) (hm : cfg.maxAlign = abi.maxAlign) (t : Nat)
    (ht : Pow2 (cfg.ty t).align) (h0 : 0 < (cfg.ty t).size) (hf : Mem.fits cfg t = true)
    (p : Nat) (hp : (basicAny abi base cfg.soos alloc).align ∣ p) :
    (cfg.ty t).align ∣ p + (basicAny abi base cfg.soos alloc).data.off ∧
    (basicAny abi base cfg.soos alloc).data.off + (cfg.ty t).size ≤ (basicAny abi base cfg.soos alloc).size ∧
    ∀ m ∈ (basicAny abi base cfg.soos alloc).others,
      m.Disjoint ⟨(basicAny abi base cfg.soos alloc).data.off, (cfg.ty t).size⟩ := by
  have hf' : fits abi cfg.soos ⟨(cfg.ty t).size, (cfg.ty t).align⟩ = true := by
    simp only [Mem.fits, fits, Bool.and_eq_true, decide_eq_true_eq] at hf ⊢
    rw [← hm]
    exact ⟨hf.1.1, hf.2⟩
  have h := C102_value_inside abi ok base hb cfg.soos alloc ha ⟨(cfg.ty t).size, (cfg.ty t).align⟩ ht h0 hf' p hp
  exact ⟨h.1, h.2.2⟩

/-- The data of the plugins of an interface, an allocator that is a pointer, a value of 32 bytes. -/
example : fits ⟨⟨8, 8⟩, ⟨8, 8⟩, 16⟩ 40 ⟨32, 16⟩ = true ∧ Pow2 16 ∧ Abi.Ok ⟨⟨8, 8⟩, ⟨8, 8⟩, 16⟩ ∧
    basicAny ⟨⟨8, 8⟩, ⟨8, 8⟩, 16⟩ ⟨4, 4⟩ 40 (some ⟨8, 8⟩) =
      { vtablePtr := ⟨8, 8⟩, valuePtr := ⟨16, 8⟩, data := ⟨32, 40⟩, sizeAllocated := ⟨32, 8⟩, alloc := some ⟨80, 8⟩,
        size := 96, align := 16 } :=
  ⟨by decide, ⟨4, rfl⟩, ⟨⟨3, rfl⟩, ⟨3, rfl⟩, ⟨4, rfl⟩, by decide, by decide⟩, by decide⟩

/-- C102: the data of plugins, the pointers, the union and the allocator are suitably aligned, lie inside the object and have no byte in
common. -/
theorem C102_members (abi : Abi) (ok : abi.Ok) (base : Ty) (hb : Pow2 base.align) (soos : Nat) (alloc : Option Ty)
    (ha : ∀ t ∈ alloc, Pow2 t.align) (p : Nat) (hp : (basicAny abi base soos alloc).align ∣ p) :
    base.align ∣ p ∧
    abi.ptr.align ∣ p + (basicAny abi base soos alloc).vtablePtr.off ∧
    abi.ptr.align ∣ p + (basicAny abi base soos alloc).valuePtr.off ∧
    abi.sizeT.align ∣ p + (basicAny abi base soos alloc).sizeAllocated.off ∧
    (∀ t ∈ alloc, ∀ m ∈ (basicAny abi base soos alloc).alloc, t.align ∣ p + m.off ∧ m.size = t.size) ∧
    (∀ m ∈ (basicAny abi base soos alloc).sizeAllocated :: (basicAny abi base soos alloc).others,
      base.size ≤ m.off ∧ m.off + m.size ≤ (basicAny abi base soos alloc).size) ∧
    ((basicAny abi base soos alloc).sizeAllocated :: (basicAny abi base soos alloc).others).Pairwise Member.Disjoint := by
  have hob := objAlign_pow2 ok hb soos ha
  have h1 := unionOff_ge ok base soos
  have h2 := size_ge ok hb soos ha
  have h3 := unionSize_ge ok soos
  have h4 := roundUp_ge base.size _ ok.ptr.pos
  have hpp : abi.ptr.align ∣ p := Nat.dvd_trans (ok.ptr.dvd_of_le hob (by unfold objAlign; omega)) hp
  have hup : unionAlign abi soos ∣ p := Nat.dvd_trans ((unionAlign_pow2 ok soos).dvd_of_le hob (by unfold objAlign; omega)) hp
  have hsu : abi.sizeT.align ∣ unionAlign abi soos :=
    ok.sizeT.dvd_of_le (unionAlign_pow2 ok soos) (by unfold unionAlign; omega)
  refine ⟨Nat.dvd_trans (hb.dvd_of_le hob (by unfold objAlign; omega)) hp,
    Nat.dvd_add hpp (roundUp_dvd _ _), Nat.dvd_add hpp (roundUp_dvd _ _),
    Nat.dvd_trans hsu (Nat.dvd_add hup (roundUp_dvd _ _)), ?_, ?_, ?_⟩
  · intro t ht m hm
    cases ht
    simp only [basicAny, allocMember, Option.map_some, Option.mem_def, Option.some.injEq] at hm
    subst hm
    have : t.align ∣ p := Nat.dvd_trans ((ha t rfl).dvd_of_le hob (by unfold objAlign allocAlign; simp only; omega)) hp
    exact ⟨Nat.dvd_add this (roundUp_dvd _ _), rfl⟩
  · intro m hm
    simp only [Obj.others, List.cons_append, List.nil_append, List.mem_cons, Option.mem_toList] at hm
    have h5 := h2.1
    rcases hm with rfl | rfl | rfl | hm
    · simp only [basicAny] at h1 h5 ⊢; omega
    · simp only [basicAny] at h1 h5 ⊢; omega
    · simp only [basicAny] at h1 h5 ⊢; omega
    · have := h2.2 m hm
      simp only [basicAny] at h1 h5 this ⊢; omega
  · simp only [Obj.others, List.cons_append, List.nil_append, List.pairwise_cons, List.mem_cons, Option.mem_toList]
    refine ⟨?_, ?_, ?_, ?_⟩
    · rintro m (rfl | rfl | hm) b hbb
      · simp only [basicAny] at h1 hbb; omega
      · simp only [basicAny] at h1 hbb; omega
      · have := h2.2 m hm
        simp only [basicAny] at hbb; omega
    · rintro m (rfl | hm) b hbb
      · simp only [basicAny] at h1 hbb; omega
      · have := h2.2 m hm
        simp only [basicAny] at h1 hbb; omega
    · intro m hm b hbb
      have := h2.2 m hm
      simp only [basicAny] at h1 hbb; omega
    · cases (basicAny abi base soos alloc).alloc <;> simp

/-- C102: the elements of an array of anys are suitably aligned, and values stored inside different elements have no byte
in common. -/
theorem C102_arrays (abi : Abi) (ok : abi.Ok) (base : Ty) (hb : Pow2 base.align) (soos : Nat) (alloc : Option Ty)
    (ha : ∀ t ∈ alloc, Pow2 t.align) (t : Ty) (h0 : 0 < t.size) (hf : fits abi soos t = true) (p : Nat)
    (hp : (basicAny abi base soos alloc).align ∣ p) (i j : Nat) (hij : i < j) :
    (basicAny abi base soos alloc).align ∣ p + j * (basicAny abi base soos alloc).size ∧
    p + i * (basicAny abi base soos alloc).size + (basicAny abi base soos alloc).data.off + t.size ≤
      p + j * (basicAny abi base soos alloc).size := by
  simp only [fits, Bool.and_eq_true, decide_eq_true_eq] at hf
  have h2 := (size_ge ok hb soos ha).1
  have h3 := (unionSize_ge ok soos).1
  have hd : (basicAny abi base soos alloc).align ∣ (basicAny abi base soos alloc).size := roundUp_dvd _ _
  refine ⟨Nat.dvd_add hp (Nat.dvd_trans hd (Nat.dvd_mul_left _ _)), ?_⟩
  have : (i + 1) * (basicAny abi base soos alloc).size ≤ j * (basicAny abi base soos alloc).size := Nat.mul_le_mul_right _ hij
  rw [Nat.add_mul, Nat.one_mul] at this
  have e : (basicAny abi base soos alloc).data.off = unionOff abi base soos := rfl
  omega

example : (basicAny ⟨⟨8, 8⟩, ⟨8, 8⟩, 16⟩ ⟨0, 1⟩ 40 none).align ∣ 4096 ∧ 3 < 7 := by decide

/-- Platforms on which pointers and `size_t` have `w` bytes and that alignment, and `max_align_t` at most twice that. -/
structure Abi.Word (abi : Abi) (w : Nat) : Prop where
  pos : 0 < w
  ptrSize : abi.ptr.size = w
  ptrAlign : abi.ptr.align = w
  sizeTSize : abi.sizeT.size = w
  sizeTAlign : abi.sizeT.align = w
  le : w ≤ abi.maxAlign
  dvd : abi.maxAlign ∣ 2 * w

theorem roundUp_zero {a : Nat} (ha : 0 < a) : roundUp 0 a = 0 := roundUp_self ha (Nat.dvd_zero a)

/-- With an empty allocator and plugins without data, the object is two pointers and the union. -/
theorem size_word {abi : Abi} (ok : abi.Ok) {w : Nat} (hw : abi.Word w) (soos : Nat) :
    (basicAny abi ⟨0, 1⟩ soos none).size = 2 * w + unionSize abi soos := by
  have hm := ok.maxAlign.pos
  have hua : unionAlign abi soos ∣ 2 * w := by
    unfold unionAlign
    split
    · rw [hw.sizeTAlign, Nat.max_self]; exact Nat.dvd_mul_left _ _
    · rw [hw.sizeTAlign, Nat.max_eq_left hw.le]; exact hw.dvd
  have hup := (unionAlign_pow2 ok soos).pos
  have hoff : unionOff abi ⟨0, 1⟩ soos = 2 * w := by
    unfold unionOff
    simp only [hw.ptrAlign, hw.ptrSize]
    rw [roundUp_zero hw.pos, Nat.zero_add, roundUp_self hw.pos (Nat.dvd_refl w), ← Nat.two_mul, roundUp_self hup hua]
  have hal : objAlign abi ⟨0, 1⟩ soos none = unionAlign abi soos := by
    have : w ≤ unionAlign abi soos := by unfold unionAlign; rw [hw.sizeTAlign]; omega
    have := hw.pos
    unfold objAlign allocAlign
    simp only [hw.ptrAlign]
    omega
  show roundUp (unionOff abi ⟨0, 1⟩ soos + unionSize abi soos) (objAlign abi ⟨0, 1⟩ soos none) = _
  rw [hal, hoff]
  exact roundUp_self hup (Nat.dvd_add hua (roundUp_dvd _ _))

/-- C102: without a buffer an any is two pointers and a `size_t` (tests/test_anyany.cpp:1367); with a buffer that is a
multiple of the strictest alignment it is two pointers and the buffer. -/
theorem C102_size (abi : Abi) (ok : abi.Ok) (w : Nat) (hw : abi.Word w) :
    (basicAnyWith abi ⟨0, 1⟩ 0 none).size = 2 * w + w ∧
    ∀ s, 0 < s → abi.maxAlign ∣ s → (basicAnyWith abi ⟨0, 1⟩ s none).size = 2 * w + s := by
  refine ⟨?_, ?_⟩
  · unfold basicAnyWith TypeList.sooBufferSize
    rw [if_pos rfl, size_word ok hw]
    have : unionAlign abi 0 = w := by unfold unionAlign; rw [if_pos rfl, hw.sizeTAlign, Nat.max_self]
    unfold unionSize
    rw [this, hw.sizeTSize, Nat.zero_max, roundUp_self hw.pos (Nat.dvd_refl w)]
  · intro s h0 hs
    have hm := ok.maxAlign.pos
    have hle : abi.maxAlign ≤ s := Nat.le_of_dvd h0 hs
    unfold basicAnyWith TypeList.sooBufferSize
    rw [if_neg (by omega), Nat.max_eq_right hle, size_word ok hw]
    unfold unionSize
    have := hw.le
    rw [unionAlign_pos ok (by omega), hw.sizeTSize, Nat.max_eq_left (by omega), roundUp_self hm hs]

theorem lp64_ok : Abi.Ok ⟨⟨8, 8⟩, ⟨8, 8⟩, 16⟩ := ⟨⟨3, rfl⟩, ⟨3, rfl⟩, ⟨4, rfl⟩, by decide, by decide⟩
theorem lp64_word : Abi.Word ⟨⟨8, 8⟩, ⟨8, 8⟩, 16⟩ 8 := ⟨by decide, rfl, rfl, rfl, rfl, by decide, by decide⟩

example : Abi.Ok ⟨⟨8, 8⟩, ⟨8, 8⟩, 16⟩ ∧ Abi.Word ⟨⟨8, 8⟩, ⟨8, 8⟩, 16⟩ 8 ∧ 16 ∣ 48 := ⟨lp64_ok, lp64_word, by decide⟩

/-- C102: a larger buffer never makes the object smaller, and if the buffer is a multiple of the strictest alignment every
larger one makes the object larger: none of its bytes is padding. -/
theorem C102_no_padding (abi : Abi) (ok : abi.Ok) (w : Nat) (hw : abi.Word w) (s s' : Nat) (h : s ≤ s') :
    (basicAnyWith abi ⟨0, 1⟩ s none).size ≤ (basicAnyWith abi ⟨0, 1⟩ s' none).size ∧
    (s < s' → 0 < s → abi.maxAlign ∣ s →
      (basicAnyWith abi ⟨0, 1⟩ s none).size < (basicAnyWith abi ⟨0, 1⟩ s' none).size) := by
  have hm := ok.maxAlign.pos
  have hwp := hw.pos
  have hle := hw.le
  have key : ∀ r, 0 < r → (basicAnyWith abi ⟨0, 1⟩ r none).size = 2 * w + roundUp (max abi.maxAlign r) abi.maxAlign := by
    intro r hr
    unfold basicAnyWith TypeList.sooBufferSize
    rw [if_neg (by omega), size_word ok hw]
    unfold unionSize
    rw [unionAlign_pos ok (by omega), hw.sizeTSize, Nat.max_eq_left (by omega : w ≤ max abi.maxAlign r)]
  have mono : ∀ x y, x ≤ y → roundUp x abi.maxAlign ≤ roundUp y abi.maxAlign := by
    intro x y hxy
    exact Nat.mul_le_mul_right _ (Nat.div_le_div_right (by omega))
  have z := (C102_size abi ok w hw).1
  refine ⟨?_, ?_⟩
  · rcases Nat.eq_zero_or_pos s with rfl | hs
    · rcases Nat.eq_zero_or_pos s' with rfl | hs'
      · exact Nat.le_refl _
      · rw [z, key s' hs']
        have := roundUp_ge (max abi.maxAlign s') _ hm
        omega
    · rw [key s hs, key s' (by omega)]
      have := mono (max abi.maxAlign s) (max abi.maxAlign s') (by omega)
      omega
  · intro hlt hs hd
    rw [(C102_size abi ok w hw).2 s hs hd, key s' (by omega)]
    have := roundUp_ge (max abi.maxAlign s') _ hm
    omega

/-- C102: `soo_buffer_size` is said to use all the padding there is, "so no useless memory"
(noexport/anyany_details.hpp:389). It does not: whenever the buffer is larger than the strictest alignment and not a
multiple of it, a buffer of one byte more takes no more room. The default buffer is such a buffer. -/
theorem C102_padding_fails (abi : Abi) (ok : abi.Ok) (w : Nat) (hw : abi.Word w) (s : Nat) (hs : abi.maxAlign ≤ s)
    (hd : ¬ abi.maxAlign ∣ s) :
    TypeList.sooBufferSize abi.maxAlign s < TypeList.sooBufferSize abi.maxAlign (s + 1) ∧
    (basicAnyWith abi ⟨0, 1⟩ (s + 1) none).size = (basicAnyWith abi ⟨0, 1⟩ s none).size := by
  have hm := ok.maxAlign.pos
  have hwp := hw.pos
  have hle := hw.le
  have key : ∀ r, abi.maxAlign ≤ r → (basicAnyWith abi ⟨0, 1⟩ r none).size = 2 * w + roundUp r abi.maxAlign := by
    intro r hr
    unfold basicAnyWith TypeList.sooBufferSize
    rw [if_neg (by omega), Nat.max_eq_right hr, size_word ok hw]
    unfold unionSize
    rw [unionAlign_pos ok (by omega), hw.sizeTSize, Nat.max_eq_left (by omega)]
  refine ⟨?_, ?_⟩
  · unfold TypeList.sooBufferSize
    rw [if_neg (by omega), if_neg (by omega)]
    omega
  · rw [key _ (by omega), key _ hs]
    have e : roundUp (s + 1) abi.maxAlign = roundUp s abi.maxAlign := by
      unfold roundUp
      congr 1
      obtain ⟨q, r, hr, e⟩ : ∃ q r, r < abi.maxAlign ∧ s = abi.maxAlign * q + r :=
        ⟨s / abi.maxAlign, s % abi.maxAlign, Nat.mod_lt _ hm, (Nat.div_add_mod _ _).symm⟩
      have hr0 : 0 < r := by
        rcases Nat.eq_zero_or_pos r with rfl | h
        · exact absurd ⟨q, by omega⟩ hd
        · exact h
      have e1 : s + 1 + abi.maxAlign - 1 = r + abi.maxAlign * (q + 1) := by rw [Nat.mul_add]; omega
      have e2 : s + abi.maxAlign - 1 = (r - 1) + abi.maxAlign * (q + 1) := by rw [Nat.mul_add]; omega
      rw [e1, e2, Nat.add_mul_div_left _ _ hm, Nat.add_mul_div_left _ _ hm, Nat.div_eq_of_lt hr,
        Nat.div_eq_of_lt (by omega : r - 1 < abi.maxAlign)]
    rw [e]

/-- **C102, exactly (padding).** For buffers of at least the strictest alignment, one byte more is free exactly if the buffer is not a multiple of it. -/
theorem C102_padding_exact (abi : Abi) (ok : abi.Ok) (w : Nat) (hw : abi.Word w) (s : Nat) (hs : abi.maxAlign ≤ s) :
    (basicAnyWith abi ⟨0, 1⟩ (s + 1) none).size = (basicAnyWith abi ⟨0, 1⟩ s none).size ↔ ¬ abi.maxAlign ∣ s := by
  have hm := ok.maxAlign.pos
  refine ⟨fun he hd => ?_, fun hd => (C102_padding_fails abi ok w hw s hs hd).2⟩
  have := (C102_no_padding abi ok w hw s (s + 1) (by omega)).2 (by omega) (by omega) hd
  omega

/-- The default buffer on 64-bit platforms: 40 bytes in an object of 64; a buffer of 48 bytes would take no more. A value of
48 bytes is allocated. -/
theorem C102_default_fails :
    defaultSoos ⟨⟨8, 8⟩, ⟨8, 8⟩, 16⟩ = 40 ∧
    (basicAnyWith ⟨⟨8, 8⟩, ⟨8, 8⟩, 16⟩ ⟨0, 1⟩ 40 none).size = 64 ∧ (basicAnyWith ⟨⟨8, 8⟩, ⟨8, 8⟩, 16⟩ ⟨0, 1⟩ 48 none).size = 64 ∧
    fits ⟨⟨8, 8⟩, ⟨8, 8⟩, 16⟩ 40 ⟨48, 8⟩ = false ∧ (basicAnyWith ⟨⟨8, 8⟩, ⟨8, 8⟩, 16⟩ ⟨0, 1⟩ 40 (some ⟨8, 8⟩)).size = 80 := by
  decide

example : Abi.Ok ⟨⟨8, 8⟩, ⟨8, 8⟩, 16⟩ ∧ Abi.Word ⟨⟨8, 8⟩, ⟨8, 8⟩, 16⟩ 8 ∧ 16 ≤ 40 ∧ ¬ 16 ∣ 40 :=
  ⟨lp64_ok, lp64_word, by decide, by decide⟩

end AnyAny.Layout
