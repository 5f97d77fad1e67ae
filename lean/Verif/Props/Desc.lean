import Verif.Props.TypeList
import Verif.Props.AnyOps
/-
C29 for the plugins of the library that declare `type_descriptor()`: for any list of methods, at most one of them is inherited directly, and it is
the one whose entry `type_descriptor()` reads.
-/
namespace AnyAny.Mem
open AnyAny.TypeList AnyAny.TypeList.Spec

/-- The methods of the library without a plugin: `destroy` (anyany.hpp:232-253), `move` (255-269), `copy_with` (277-312), `hash` (344-350);
`plugin_t` of these is `void` (524). User methods are taken to have a plugin of their own. -/
def noPlugin : Method → Bool
  | .destroy | .move | .copy _ | .hash => true
  | _ => false

/-- `std::is_base_of` on plugins, each named by its method: `equal_to::plugin` derives from `type_info::plugin` (anyany.hpp:1802) and
`spaceship::plugin` from `equal_to::plugin` (1849). Plugins of user methods are not related to others. -/
def pluginBase (a b : Method) : Bool :=
  a == b || (a == .typeInfo && (b == .equalTo || b == .spaceship)) || (a == .equalTo && b == .spaceship)

/-- The plugins that declare `type_descriptor()` (anyany.hpp:1769-1779, 1824, 1871). -/
def declaresDescriptor (m : Method) : Prop := m = .typeInfo ∨ m = .equalTo ∨ m = .spaceship

theorem pluginBase_hierarchy : IsHierarchy pluginBase where
  refl := by intro a; simp [pluginBase]
  trans := by
    intro a b c
    simp only [pluginBase, Bool.or_eq_true, Bool.and_eq_true, beq_iff_eq]
    rintro ((rfl | ⟨rfl, (rfl | rfl)⟩) | ⟨rfl, rfl⟩) ((rfl | ⟨h, (rfl | rfl)⟩) | ⟨h, rfl⟩) <;> first | (cases h; done) | simp_all
  antisymm := by
    intro a b
    simp only [pluginBase, Bool.or_eq_true, Bool.and_eq_true, beq_iff_eq]
    rintro ((rfl | ⟨rfl, (rfl | rfl)⟩) | ⟨rfl, rfl⟩) <;> simp

/-- C29: of the plugins that declare `type_descriptor()`, a class inherits directly exactly the one whose vtable entry `type_descriptor()` of the
model reads; there is one iff the class has one of the three methods. So name lookup is never ambiguous. -/
theorem C29_type_descriptor (ms : List Method) :
    (∀ m, declaresDescriptor m → (m ∈ inheritWithoutDuplicates noPlugin pluginBase ms [] ↔ descMethod ms = some m)) ∧
    ((∃ m, declaresDescriptor m ∧ m ∈ inheritWithoutDuplicates noPlugin pluginBase ms []) ↔ HasDesc ms) ∧
    (∀ m m', declaresDescriptor m → declaresDescriptor m' → m ∈ inheritWithoutDuplicates noPlugin pluginBase ms [] →
      m' ∈ inheritWithoutDuplicates noPlugin pluginBase ms [] → m = m') := by
  have hv : ∀ a b, noPlugin b = true → pluginBase a b = true → noPlugin a = true := by
    intro a b h
    cases b <;> simp [noPlugin] at h <;> simp +contextual [pluginBase, noPlugin]
  have key : ∀ m, declaresDescriptor m → (m ∈ inheritWithoutDuplicates noPlugin pluginBase ms [] ↔ descMethod ms = some m) := by
    intro m hm
    rw [C29_inherited_iff noPlugin pluginBase pluginBase_hierarchy hv ms m]
    unfold descMethod
    simp only [List.contains_iff_mem]
    rcases hm with rfl | rfl | rfl
    · constructor
      · rintro ⟨h1, _, h3⟩
        have n1 : Method.spaceship ∉ ms := fun h => nomatch h3 _ h rfl rfl
        have n2 : Method.equalTo ∉ ms := fun h => nomatch h3 _ h rfl rfl
        simp [n1, n2, h1]
      · intro h
        split at h
        · simp at h
        · split at h
          · simp at h
          · split at h
            · rename_i n1 n2 h1
              refine ⟨h1, rfl, fun y hy _ hb => ?_⟩
              simp only [pluginBase, Bool.or_eq_true, Bool.and_eq_true, beq_iff_eq] at hb
              rcases hb with (rfl | ⟨_, (rfl | rfl)⟩) | ⟨h, _⟩
              · rfl
              · exact absurd hy n2
              · exact absurd hy n1
              · cases h
            · simp at h
    · constructor
      · rintro ⟨h1, _, h3⟩
        have n1 : Method.spaceship ∉ ms := fun h => nomatch h3 _ h rfl rfl
        simp [n1, h1]
      · intro h
        split at h
        · simp at h
        · split at h
          · rename_i n1 h1
            refine ⟨h1, rfl, fun y hy _ hb => ?_⟩
            simp only [pluginBase, Bool.or_eq_true, Bool.and_eq_true, beq_iff_eq] at hb
            rcases hb with (rfl | ⟨h, _⟩) | ⟨_, rfl⟩
            · rfl
            · cases h
            · exact absurd hy n1
          · split at h <;> simp at h
    · constructor
      · rintro ⟨h1, _, _⟩; simp [h1]
      · intro h
        split at h
        · rename_i h1
          refine ⟨h1, rfl, fun y _ _ hb => ?_⟩
          simp only [pluginBase, Bool.or_eq_true, Bool.and_eq_true, beq_iff_eq] at hb
          rcases hb with (rfl | ⟨h, _⟩) | ⟨h, _⟩
          · rfl
          · cases h
          · cases h
        · split at h
          · simp at h
          · split at h <;> simp at h
  refine ⟨key, ⟨?_, ?_⟩, ?_⟩
  · rintro ⟨m, hm, h⟩
    have h1 := (C29_inherited_iff noPlugin pluginBase pluginBase_hierarchy hv ms m).1 h
    rcases hm with rfl | rfl | rfl
    · exact Or.inl h1.1
    · exact Or.inr (Or.inl h1.1)
    · exact Or.inr (Or.inr h1.1)
  · intro h
    obtain ⟨m, hm, hmem⟩ := descMethod_mem h
    have hd : declaresDescriptor m := by
      unfold descMethod at hm
      repeat' split at hm
      all_goals simp at hm
      all_goals subst hm; simp [declaresDescriptor]
    exact ⟨m, hd, (key m hd).2 hm⟩
  · intro m m' h h' hm hm'
    have e := (key m h).1 hm
    rw [(key m' h').1 hm'] at e
    exact (Option.some.inj e).symm

example : descMethod [.destroy, .typeInfo, .spaceship, .equalTo] = some .spaceship ∧ descMethod [.copy 0, .equalTo] = some .equalTo ∧
    descMethod [.copy 0] = none ∧
    inheritWithoutDuplicates noPlugin pluginBase [.destroy, .typeInfo, .user 1, .spaceship, .equalTo] [] = [.user 1, .spaceship] := by decide

/-- A history with classes that have `equal_to` or `spaceship` but not `type_info`: casts work. -/
example : ∃ w, Reachable exCfg w ∧ (view w 0 = some (2, 7) ∧ view w 1 = some (1, 5) ∧
    (anyCastCopy exCfg 0 2 w).isOk = true ∧ (anyCastCopy exCfg 0 1 w).isExn = true ∧ (anyCastMove exCfg 1 1 w).isOk = true) :=
  run_witness (ops := [.valueCtor 0 [.destroy, .copy 0, .equalTo] 1 2 (.lit 7) false, .valueCtor 1 [.destroy, .spaceship] 1 1 (.lit 5) false,
    .castCopy 0 2]) (by decide +kernel)

end AnyAny.Mem
