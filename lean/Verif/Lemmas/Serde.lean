import Verif.Spec.Serde
/-!
# Lemmas: UUIDs in `serde`
-/

namespace Pasture.Serde
open Tiles3d

theorem hexValue_hexChar {d : Nat} (h : d < 16) : hexValue (hexChar d) = some d := by
  have : ∀ d : Fin 16, hexValue (hexChar d) = some d.1 := by decide
  exact this ⟨d, h⟩

theorem hexNumber_append (cs : List Char) (c : Char) :
    hexNumber (cs ++ [c]) = (hexNumber cs).bind fun n => (hexValue c).bind fun d => some (n * 16 + d) := by
  simp only [hexNumber, List.foldl_append, List.foldl_cons, List.foldl_nil]
  rfl

theorem hexNumber_digits (k n : Nat) : hexNumber (hexDigits k n) = some (n % 16 ^ k) := by
  induction k generalizing n with
  | zero => simp [hexDigits, hexNumber, Nat.mod_one]
  | succ k ih =>
    rw [hexDigits, hexNumber_append, ih, hexValue_hexChar (Nat.mod_lt _ (by decide))]
    simp only [Option.bind_some, Option.some.injEq]
    rw [Nat.pow_succ, Nat.mul_comm (16 ^ k) 16, Nat.mod_mul]
    omega

theorem hexDigits_length (k n : Nat) : (hexDigits k n).length = k := by
  induction k generalizing n with
  | zero => rfl
  | succ k ih => simp [hexDigits, ih]

theorem hyphenate_length {ds : List Char} (h : ds.length = 32) : (hyphenate ds).length = 36 := by
  simp [hyphenate, h]

theorem unhyphenate_hyphenate {ds : List Char} (h : ds.length = 32) : unhyphenate (hyphenate ds) = some ds := by
  obtain ⟨a, r1, ha, rfl⟩ : ∃ a r, a.length = 8 ∧ ds = a ++ r := ⟨ds.take 8, ds.drop 8, by simp [h], by simp⟩
  obtain ⟨b, r2, hb, rfl⟩ : ∃ a r, a.length = 4 ∧ r1 = a ++ r :=
    ⟨r1.take 4, r1.drop 4, by simp at h ⊢; omega, by simp⟩
  obtain ⟨c, r3, hc, rfl⟩ : ∃ a r, a.length = 4 ∧ r2 = a ++ r :=
    ⟨r2.take 4, r2.drop 4, by simp at h ⊢; omega, by simp⟩
  obtain ⟨d, e, hd, rfl⟩ : ∃ a r, a.length = 4 ∧ r3 = a ++ r :=
    ⟨r3.take 4, r3.drop 4, by simp at h ⊢; omega, by simp⟩
  have he : e.length = 12 := by simp at h; omega
  have hh : hyphenate (a ++ (b ++ (c ++ (d ++ e)))) =
      a ++ '-' :: (b ++ '-' :: (c ++ '-' :: (d ++ '-' :: e))) := by
    simp (disch := omega) [hyphenate, List.drop_append, ha, hb, hc, List.drop_eq_nil_of_le]
  rw [hh, unhyphenate, if_pos]
  · simp (disch := omega) [List.drop_append, ha, hb, hc, hd, List.drop_eq_nil_of_le]
  · refine ⟨by simp [ha, hb, hc, hd, he], ?_, ?_, ?_, ?_⟩ <;>
      simp [List.getElem?_append, ha, hb, hc, hd]

/-- The written form of a UUID is read back. -/
theorem uuid_round {n : Nat} (h : n < 2 ^ 128) : uuidOfJson (uuidToJson n) = .ok n := by
  have hl := hexDigits_length 32 n
  have hy := hyphenate_length hl
  simp only [uuidToJson, uuidOfJson, String.toList_ofList, uuidOfChars, hy]
  rw [if_neg (by decide), if_pos trivial, unhyphenate_hyphenate hl, Option.bind_some, hexNumber_digits]
  rw [Nat.mod_eq_of_lt (by simpa using h)]
  rfl

open Spec

theorem hexValue_iff (c : Char) (v : Nat) : hexValue c = some v ↔ IsHexDigit c v := by
  constructor
  · intro h
    have hc : c = Char.ofNat c.toNat := (Char.ofNat_toNat c).symm
    unfold hexValue at h
    simp only at h
    generalize c.toNat = n at h hc
    subst hc
    split at h
    · injection h with h
      subst h
      have hn : n = 48 ∨ n = 49 ∨ n = 50 ∨ n = 51 ∨ n = 52 ∨ n = 53 ∨ n = 54 ∨ n = 55 ∨ n = 56 ∨ n = 57 := by omega
      left
      rcases hn with h | h | h | h | h | h | h | h | h | h <;> subst h <;> decide
    · split at h
      · injection h with h
        subst h
        have hn : n = 97 ∨ n = 98 ∨ n = 99 ∨ n = 100 ∨ n = 101 ∨ n = 102 := by omega
        left
        rcases hn with h | h | h | h | h | h <;> subst h <;> decide
      · split at h
        · injection h with h
          subst h
          have hn : n = 65 ∨ n = 66 ∨ n = 67 ∨ n = 68 ∨ n = 69 ∨ n = 70 := by omega
          right
          rcases hn with h | h | h | h | h | h <;> subst h <;> decide
        · cases h
  · intro h
    have key : ∀ v : Fin 16, hexValue ("0123456789abcdef".toList[v.1]?.getD 'x') = some v.1 ∧
        hexValue ("0123456789ABCDEF".toList[v.1]?.getD 'x') = some v.1 := by decide
    rcases h with h | h
    · have hv : v < 16 := (List.getElem?_eq_some_iff.1 h).1
      have := (key ⟨v, hv⟩).1
      rw [h] at this
      exact this
    · have hv : v < 16 := (List.getElem?_eq_some_iff.1 h).1
      have := (key ⟨v, hv⟩).2
      rw [h] at this
      exact this

theorem hexFold_none (cs : List Char) :
    cs.foldl (fun acc c => do
      let n ← acc
      let d ← hexValue c
      pure (n * 16 + d)) (none : Option Nat) = none := by
  induction cs with
  | nil => rfl
  | cons c cs ih => exact ih

theorem hexFold_iff (cs : List Char) (k n : Nat) :
    cs.foldl (fun acc c => do
      let n ← acc
      let d ← hexValue c
      pure (n * 16 + d)) (some k) = some n ↔
    ∃ vs : List Nat, List.Forall₂ IsHexDigit cs vs ∧ n = vs.foldl (fun n v => 16 * n + v) k := by
  induction cs generalizing k with
  | nil =>
    constructor
    · intro h
      exact ⟨[], .nil, (Option.some.inj h).symm⟩
    · rintro ⟨vs, hf, rfl⟩
      cases hf
      rfl
  | cons c cs ih =>
    rw [List.foldl_cons]
    cases hc : hexValue c with
    | none =>
      show List.foldl _ (none : Option Nat) cs = _ ↔ _
      rw [hexFold_none]
      constructor
      · intro h
        cases h
      · rintro ⟨vs, hf, _⟩
        cases hf with
        | cons h _ =>
          rw [(hexValue_iff _ _).2 h] at hc
          cases hc
    | some d =>
      show List.foldl _ (some (k * 16 + d)) cs = _ ↔ _
      rw [ih]
      constructor
      · rintro ⟨vs, hf, rfl⟩
        exact ⟨d :: vs, .cons ((hexValue_iff _ _).1 hc) hf, by rw [List.foldl_cons, Nat.mul_comm 16]⟩
      · rintro ⟨vs, hf, rfl⟩
        cases hf with
        | cons h hf =>
          rw [(hexValue_iff _ _).2 h] at hc
          injection hc with hc
          subst hc
          exact ⟨_, hf, by rw [List.foldl_cons, Nat.mul_comm 16]⟩

theorem hexNumber_iff (cs : List Char) (n : Nat) : hexNumber cs = some n ↔ HexOf cs n := hexFold_iff cs 0 n

theorem unhyphenate_iff (s ds : List Char) : unhyphenate s = some ds ↔ Hyphenated s ds := by
  constructor
  · intro h
    unfold unhyphenate at h
    split at h
    · rename_i hc
      obtain ⟨hl, h8, h13, h18, h23⟩ := hc
      injection h with h
      have step : ∀ (n : Nat) (t : List Char), s[n]? = some '-' → s.drop n = '-' :: s.drop (n + 1) := by
        intro n _ hn
        obtain ⟨hlt, he⟩ := List.getElem?_eq_some_iff.1 hn
        rw [List.drop_eq_getElem_cons hlt, he]
      refine ⟨s.take 8, (s.drop 9).take 4, (s.drop 14).take 4, (s.drop 19).take 4, s.drop 24, by simp [hl],
        by simp [hl], by simp [hl], by simp [hl], by simp [hl], by simp [← h], ?_⟩
      have e1 : s = s.take 8 ++ s.drop 8 := by simp
      have e2 : s.drop 9 = (s.drop 9).take 4 ++ s.drop 13 := by
        conv_lhs => rw [← List.take_append_drop 4 (s.drop 9)]
        rw [List.drop_drop]
      have e3 : s.drop 14 = (s.drop 14).take 4 ++ s.drop 18 := by
        conv_lhs => rw [← List.take_append_drop 4 (s.drop 14)]
        rw [List.drop_drop]
      have e4 : s.drop 19 = (s.drop 19).take 4 ++ s.drop 23 := by
        conv_lhs => rw [← List.take_append_drop 4 (s.drop 19)]
        rw [List.drop_drop]
      conv_lhs => rw [e1, step 8 s h8, e2, step 13 s h13, e3, step 18 s h18, e4, step 23 s h23]
      simp
    · cases h
  · rintro ⟨a, b, c, d, e, ha, hb, hc, hd, he, rfl, rfl⟩
    have := unhyphenate_hyphenate (ds := a ++ (b ++ (c ++ (d ++ e)))) (by simp [ha, hb, hc, hd, he])
    have hh : hyphenate (a ++ (b ++ (c ++ (d ++ e)))) =
        a ++ '-' :: (b ++ '-' :: (c ++ '-' :: (d ++ '-' :: e))) := by
      simp (disch := omega) [hyphenate, List.drop_append, ha, hb, hc, List.drop_eq_nil_of_le]
    rw [hh] at this
    simpa using this

theorem hyphenated_lengths {s ds : List Char} (h : Hyphenated s ds) : s.length = 36 ∧ ds.length = 32 := by
  obtain ⟨a, b, c, d, e, ha, hb, hc, hd, he, rfl, rfl⟩ := h
  simp [ha, hb, hc, hd, he]

theorem hyphenated_exists {ds : List Char} (h : ds.length = 32) : Hyphenated (hyphenate ds) ds :=
  (unhyphenate_iff _ _).1 (unhyphenate_hyphenate h)

theorem hyphenated_number {s : List Char} {n : Nat} (h : (unhyphenate s).bind hexNumber = some n) :
    ∃ ds, HexOf ds n ∧ ds.length = 32 ∧ Hyphenated s ds := by
  cases hu : unhyphenate s with
  | none => rw [hu] at h; cases h
  | some ds =>
    rw [hu] at h
    have hy := (unhyphenate_iff _ _).1 hu
    exact ⟨ds, (hexNumber_iff _ _).1 h, (hyphenated_lengths hy).2, hy⟩

theorem uuidOfChars_iff (s : List Char) (n : Nat) : uuidOfChars s = some n ↔ IsUuidText s n := by
  constructor
  · intro h
    unfold uuidOfChars at h
    split at h
    · rename_i hl
      exact ⟨s, hyphenate s, (hexNumber_iff _ _).1 h, hl, hyphenated_exists hl, Or.inl rfl⟩
    · split at h
      · obtain ⟨ds, h1, h2, h3⟩ := hyphenated_number h
        exact ⟨ds, s, h1, h2, h3, Or.inr (Or.inl rfl)⟩
      · split at h
        · rename_i hc
          obtain ⟨hl, h0, h37⟩ := hc
          obtain ⟨ds, h1, h2, h3⟩ := hyphenated_number h
          refine ⟨ds, _, h1, h2, h3, Or.inr (Or.inr (Or.inl ?_))⟩
          obtain ⟨hlt, he⟩ := List.getElem?_eq_some_iff.1 h0
          obtain ⟨hlt', he'⟩ := List.getElem?_eq_some_iff.1 h37
          have e0 : s = '{' :: s.drop 1 := by
            conv_lhs => rw [← List.drop_zero (l := s), List.drop_eq_getElem_cons hlt, he]
          have e1 : s.drop 1 = (s.drop 1).take 36 ++ s.drop 37 := by
            conv_lhs => rw [← List.take_append_drop 36 (s.drop 1)]
            rw [List.drop_drop]
          have e2 : s.drop 37 = ['}'] := by
            rw [List.drop_eq_getElem_cons hlt', he', List.drop_eq_nil_of_le (by omega)]
          conv_lhs => rw [e0, e1, e2]
          simp
        · split at h
          · rename_i hc
            obtain ⟨hl, ht⟩ := hc
            obtain ⟨ds, h1, h2, h3⟩ := hyphenated_number h
            refine ⟨ds, _, h1, h2, h3, Or.inr (Or.inr (Or.inr ?_))⟩
            rw [← ht, List.take_append_drop]
          · cases h
  · rintro ⟨ds, h, h1, h2, h3, hs⟩
    have hl := (hyphenated_lengths h3).1
    have hn : (unhyphenate h).bind hexNumber = some n := by
      rw [(unhyphenate_iff _ _).2 h3, Option.bind_some, (hexNumber_iff _ _).2 h1]
    unfold uuidOfChars
    rcases hs with rfl | rfl | rfl | rfl
    · rw [if_pos h2]
      exact (hexNumber_iff _ _).2 h1
    · rw [if_neg (by omega), if_pos hl]
      exact hn
    · have hl' : (['{'] ++ h ++ ['}']).length = 38 := by simp [hl]
      rw [if_neg (by omega), if_neg (by omega), if_pos]
      · have : ((['{'] ++ h ++ ['}']).drop 1).take 36 = h := by
          simp [hl]
        rw [this]
        exact hn
      · refine ⟨hl', by simp, ?_⟩
        simp [hl]
    · have hp : "urn:uuid:".toList.length = 9 := by decide
      have hl' : ("urn:uuid:".toList ++ h).length = 45 := by rw [List.length_append, hl, hp]
      rw [if_neg (by omega), if_neg (by omega), if_neg (by omega), if_pos]
      · rw [List.drop_append, hp, List.drop_eq_nil_of_le (by omega)]
        exact hn
      · refine ⟨hl', ?_⟩
        rw [List.take_append, hp, List.take_of_length_le (by omega)]
        simp

theorem hexOf_lt {ds : List Char} {n : Nat} (h : HexOf ds n) : n < 16 ^ ds.length := by
  obtain ⟨vs, hf, rfl⟩ := h
  have : ∀ (k : Nat), vs.foldl (fun n v => 16 * n + v) k < (k + 1) * 16 ^ ds.length := by
    induction hf with
    | nil => intro k; simp
    | cons h _ ih =>
      intro k
      rename_i v _ _ _
      have hlt : v < 16 := by
        rcases h with h | h
        · exact (List.getElem?_eq_some_iff.1 h).1
        · exact (List.getElem?_eq_some_iff.1 h).1
      rw [List.foldl_cons, List.length_cons]
      refine Nat.lt_of_lt_of_le (ih (16 * k + v)) ?_
      rw [Nat.pow_succ, Nat.mul_comm (16 ^ _) 16, ← Nat.mul_assoc]
      exact Nat.mul_le_mul_right _ (by omega)
  have := this 0
  simpa using this

end Pasture.Serde
