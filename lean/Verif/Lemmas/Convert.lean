import Verif.Model.Convert
import Verif.Spec.Convert
import Verif.Lemmas.Numbers
import Verif.Lemmas.Blocks

/-! # The converters compute the conversions of the specification -/

namespace Pasture

open Spec

theorem put_all {target src : Bytes} (h : src.length = target.length) : put target 0 src = src := by
  unfold put
  simp [h]

theorem run_scalar (p q : Prim) {s t : Bytes} (hs : s.length = p.size) (ht : t.length = q.size) :
    (Converter.scalar p q).run s t = .ok (convertNumber p q s) := by
  unfold Converter.run
  simp only
  rw [if_pos (by omega), put_all (by rw [writeNum_length, ht]), List.take_of_length_le (by omega)]
  rfl

theorem run_scalar_num (p q : Prim) {s t : Bytes} (hs : s.length = p.size) (ht : t.length = q.size) :
    (Converter.scalar p q).run s t = .ok (writeNum q (asNum q (readNum p s))) := run_scalar p q hs ht

theorem convertNumber_length (p q : Prim) (v : Bytes) : (convertNumber p q v).length = q.size :=
  writeNum_length _ _

theorem convertVector_length (p q : Prim) (v : Bytes) : (convertVector p q v).length = 3 * q.size := by
  simp only [convertVector, List.length_append, convertNumber_length]; omega

theorem run_vec3 (p q : Prim) {s t : Bytes} (hs : s.length = 3 * p.size) (ht : t.length = 3 * q.size) :
    (Converter.vec3 p q).run s t = .ok (convertVector p q s) := by
  unfold Converter.run
  simp only
  rw [if_pos (by omega)]
  have e : ∀ i, Converter.component p.size i s = window s (i * p.size) p.size := fun i => rfl
  simp only [e, Nat.zero_mul, Nat.one_mul]
  rw [put_all (by simp [writeNum_length, ht]; omega)]
  rfl

/-- A converter for values of `a` and `b`: it computes `f`. -/
structure Converts (c : Converter) (a b : DataType) (f : Bytes → Bytes) : Prop where
  run : ∀ s t : Bytes, s.length = a.size → t.length = b.size → c.run s t = .ok (f s)
  size : ∀ s, (f s).length = b.size

theorem converts_scalar (p q : Prim) : Converts (.scalar p q) p.dataType q.dataType (convertNumber p q) := by
  have e : ∀ p : Prim, p.dataType.size = p.size := by intro p; cases p <;> rfl
  constructor
  · intro s t hs ht
    exact run_scalar p q (by rw [hs, e]) (by rw [ht, e])
  · intro s; rw [convertNumber_length, e]

theorem converts_vec3 {p q : Prim} {a b : DataType} (ha : componentType a = some p)
    (hb : componentType b = some q) : Converts (.vec3 p q) a b (convertVector p q) := by
  have e : ∀ {p : Prim} {a : DataType}, componentType a = some p → a.size = 3 * p.size := by
    intro p a h
    cases a <;> simp only [componentType, Option.some.injEq, reduceCtorEq] at h <;> subst h <;> rfl
  constructor
  · intro s t hs ht
    exact run_vec3 p q (by rw [hs, e ha]) (by rw [ht, e hb])
  · intro s; rw [convertVector_length, e hb]

def allPrims : List Prim := [.u8, .i8, .u16, .i16, .u32, .i32, .u64, .i64, .f32, .f64]

/-- The table of converters (a finite table), entry by entry. -/
theorem converters_sound : ∀ kv ∈ genericConverters,
    (∃ p ∈ allPrims, ∃ q ∈ allPrims, p ≠ q ∧ kv = ((p.dataType, q.dataType), .scalar p q)) ∨
    ∃ p ∈ allPrims, ∃ q ∈ allPrims, p ≠ q ∧ componentType kv.1.1 = some p ∧ componentType kv.1.2 = some q ∧
      kv.2 = .vec3 p q := by
  decide +kernel

theorem scalarType_dataType (p : Prim) : scalarType p.dataType = some p := by cases p <;> rfl
theorem componentType_dataType (p : Prim) : componentType p.dataType = none := by cases p <;> rfl
theorem scalarType_some {a : DataType} {p : Prim} (h : scalarType a = some p) : a = p.dataType := by
  cases a <;> simp only [scalarType, Option.some.injEq, reduceCtorEq] at h <;> subst h <;> rfl

theorem scalar_of_component {a : DataType} {p : Prim} (h : componentType a = some p) : scalarType a = none := by
  cases a <;> simp only [componentType, Option.some.injEq, reduceCtorEq] at h <;> rfl

theorem lookup_scalar {p q : Prim} (h : p ≠ q) :
    genericConverters.lookup (p.dataType, q.dataType) = some (.scalar p q) := by
  revert h
  cases p <;> cases q <;> intro h <;> first | rfl | exact absurd rfl h

theorem lookup_vec3 {p q : Prim} {a b : DataType} (ha : componentType a = some p)
    (hb : componentType b = some q) (h : a ≠ b) :
    genericConverters.lookup (a, b) = some (.vec3 p q) := by
  revert h
  cases a <;> simp only [componentType, Option.some.injEq, reduceCtorEq] at ha <;>
    cases b <;> simp only [componentType, Option.some.injEq, reduceCtorEq] at hb <;> intro h <;>
    subst ha <;> subst hb <;> first | rfl | exact absurd rfl h

/-- The converter table against the specification. -/
theorem generic_spec {a b : DataType} (h : a ≠ b) :
    (conversion a b = none → getGenericConverter a b = .error .panic) ∧
    ∀ f, conversion a b = some f → ∃ c, getGenericConverter a b = .ok (some c) ∧ Converts c a b f := by
  unfold conversion
  rw [if_neg h]
  cases h1 : scalarType a with
  | some p =>
    have ea := scalarType_some h1
    cases h2 : scalarType b with
    | some q =>
      have eb := scalarType_some h2
      have hpq : p ≠ q := fun e => h (by rw [ea, eb, e])
      refine ⟨by simp, ?_⟩
      intro f hf
      simp only [Option.some.injEq] at hf
      subst hf
      refine ⟨.scalar p q, ?_, by rw [ea, eb]; exact converts_scalar p q⟩
      unfold getGenericConverter
      rw [ea, eb, lookup_scalar hpq]
      rfl
    | none =>
      have e3 : componentType a = none := by rw [ea]; exact componentType_dataType p
      rw [e3]
      refine ⟨fun _ => ?_, by simp⟩
      exact panics (by rw [h2]; simp) (by rw [e3]; simp)
  | none =>
    cases h3 : componentType a with
    | none =>
      refine ⟨fun _ => ?_, by simp⟩
      exact panics (by rw [h1]; simp) (by rw [h3]; simp)
    | some p =>
      cases h4 : componentType b with
      | none =>
        refine ⟨fun _ => ?_, by simp⟩
        exact panics (by rw [h1]; simp) (by rw [h4]; simp)
      | some q =>
        refine ⟨by simp, ?_⟩
        intro f hf
        simp only [Option.some.injEq] at hf
        subst hf
        refine ⟨.vec3 p q, ?_, converts_vec3 h3 h4⟩
        unfold getGenericConverter
        rw [lookup_vec3 h3 h4 h]
        rfl
where
  panics {a b : DataType} (hs : ¬ (∃ p q, scalarType a = some p ∧ scalarType b = some q))
      (hv : ¬ (∃ p q, componentType a = some p ∧ componentType b = some q)) :
      getGenericConverter a b = .error .panic := by
    have : genericConverters.lookup (a, b) = none := by
      rw [List.lookup_eq_none_iff]
      intro kv hkv
      have : (a, b) ≠ kv.1 := by
        intro he
        rcases converters_sound kv hkv with ⟨p, _, q, _, _, e⟩ | ⟨p, _, q, _, _, e1, e2, _⟩
        · rw [e] at he
          obtain ⟨rfl, rfl⟩ := Prod.mk.inj he
          exact hs ⟨p, q, scalarType_dataType p, scalarType_dataType q⟩
        · rw [← he] at e1 e2
          exact hv ⟨p, q, e1, e2⟩
      simpa using this
    unfold getGenericConverter
    rw [this]
    rfl

end Pasture
