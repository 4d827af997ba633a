import Verif.Spec.Pnts
import Verif.Lemmas.PntsJson

/-!
# A way to write JSON values that can be read back

The theorems on 3D Tiles point clouds hold for every `JsonText` that is `Faithful`. This is one: a binary format in
which no value is the beginning of another one.
-/

namespace Pasture.Tiles3d.Codec

open Spec Spec.Pnts

/-- The characters of a string. -/
def serChars : List Char → Bytes
  | [] => [0]
  | c :: cs => 1 :: natLE 4 c.toNat ++ serChars cs

mutual

/-- A value. -/
def ser : Json → Bytes
  | .null => [0]
  | .bool b => [1, if b then 1 else 0]
  | .int z => 2 :: natLE 9 (z + 2 ^ 63).toNat
  | .float x => 3 :: (if x.neg then 1 else 0) :: natLE 8 x.mag
  | .string s => 4 :: serChars s.toList
  | .array xs => 5 :: serList xs
  | .object es => 6 :: serEntries es

/-- The elements of an array. -/
def serList : List Json → Bytes
  | [] => [0]
  | x :: xs => 1 :: (ser x ++ serList xs)

/-- The entries of an object. -/
def serEntries : List (String × Json) → Bytes
  | [] => [0]
  | (k, v) :: es => 1 :: (serChars k.toList ++ (ser v ++ serEntries es))

end

theorem natLE_append {k a b : Nat} (ha : a < 2 ^ (8 * k)) (hb : b < 2 ^ (8 * k)) {x y : Bytes} (h : natLE k a ++ x = natLE k b ++ y) :
    a = b ∧ x = y := by
  obtain ⟨h1, h2⟩ := List.append_inj h (by rw [natLE_length, natLE_length])
  refine ⟨?_, h2⟩
  have := congrArg leNat h1
  rwa [leNat_natLE, leNat_natLE, Nat.mod_eq_of_lt ha, Nat.mod_eq_of_lt hb] at this

theorem char_lt (c : Char) : c.toNat < 2 ^ (8 * 4) := c.val.toNat_lt

theorem finite_lt {x : F64} (h : x.isFinite) : x.mag < 2 ^ (8 * 8) :=
  Nat.lt_trans (of_decide_eq_true h) (by decide)

theorem serChars_inj : ∀ (a b : List Char) (x y : Bytes), serChars a ++ x = serChars b ++ y → a = b ∧ x = y := by
  intro a
  induction a with
  | nil =>
    intro b x y h
    cases b with
    | nil => simpa [serChars] using h
    | cons c cs => simp [serChars] at h
  | cons c cs ih =>
    intro b x y h
    cases b with
    | nil => simp [serChars] at h
    | cons d ds =>
      simp only [serChars, List.cons_append, List.cons.injEq, true_and, List.append_assoc] at h
      obtain ⟨h1, h2⟩ := natLE_append (char_lt c) (char_lt d) h
      obtain ⟨h3, h4⟩ := ih ds x y h2
      exact ⟨by rw [Char.toNat_inj.1 h1, h3], h4⟩

theorem string_inj {a b : String} {x y : Bytes} (h : serChars a.toList ++ x = serChars b.toList ++ y) : a = b ∧ x = y := by
  obtain ⟨h1, h2⟩ := serChars_inj _ _ _ _ h
  exact ⟨String.toList_injective h1, h2⟩

mutual

theorem ser_inj : ∀ (a b : Json) (x y : Bytes), Valid a → Valid b → ser a ++ x = ser b ++ y → a = b ∧ x = y
  | .null, b, x, y, _, hb, h => by
    cases b <;> simp [ser] at h
    exact ⟨rfl, h⟩
  | .bool a, b, x, y, _, hb, h => by
    cases b with
    | bool b => cases a <;> cases b <;> simp [ser] at h <;> exact ⟨rfl, h⟩
    | _ => simp [ser] at h
  | .int a, b, x, y, ha, hb, h => by
    cases b with
    | int b =>
      cases ha with | int _ a1 a2 => cases hb with | int _ b1 b2 =>
      simp only [ser, List.cons_append, List.cons.injEq, true_and] at h
      obtain ⟨h1, h2⟩ := natLE_append (by omega) (by omega) h
      exact ⟨by congr 1; omega, h2⟩
    | _ => simp [ser] at h
  | .float a, b, x, y, ha, hb, h => by
    cases b with
    | float b =>
      cases ha with | float _ a1 => cases hb with | float _ b1 =>
      obtain ⟨n1, m1⟩ := a
      obtain ⟨n2, m2⟩ := b
      simp only [ser, List.cons_append, List.cons.injEq, true_and] at h
      have l1 := finite_lt a1
      have l2 := finite_lt b1
      obtain ⟨h1, h2⟩ := natLE_append l1 l2 h.2
      subst h1
      refine ⟨?_, h2⟩
      have := h.1
      cases n1 <;> cases n2 <;> first | rfl | simp at this
    | _ => simp [ser] at h
  | .string a, b, x, y, _, hb, h => by
    cases b with
    | string b =>
      simp only [ser, List.cons_append, List.cons.injEq, true_and] at h
      obtain ⟨h1, h2⟩ := string_inj h
      exact ⟨by rw [h1], h2⟩
    | _ => simp [ser] at h
  | .array a, b, x, y, ha, hb, h => by
    cases b with
    | array b =>
      cases ha with | array _ a1 => cases hb with | array _ b1 =>
      simp only [ser, List.cons_append, List.cons.injEq, true_and] at h
      obtain ⟨h1, h2⟩ := serList_inj a b x y a1 b1 h
      exact ⟨by rw [h1], h2⟩
    | _ => simp [ser] at h
  | .object a, b, x, y, ha, hb, h => by
    cases b with
    | object b =>
      cases ha with | object _ _ a1 => cases hb with | object _ _ b1 =>
      simp only [ser, List.cons_append, List.cons.injEq, true_and] at h
      obtain ⟨h1, h2⟩ := serEntries_inj a b x y a1 b1 h
      exact ⟨by rw [h1], h2⟩
    | _ => simp [ser] at h

theorem serList_inj : ∀ (a b : List Json) (x y : Bytes), (∀ j ∈ a, Valid j) → (∀ j ∈ b, Valid j) →
    serList a ++ x = serList b ++ y → a = b ∧ x = y
  | [], b, x, y, _, _, h => by
    cases b with
    | nil => simpa [serList] using h
    | cons c cs => simp [serList] at h
  | c :: cs, b, x, y, ha, hb, h => by
    cases b with
    | nil => simp [serList] at h
    | cons d ds =>
      simp only [serList, List.cons_append, List.cons.injEq, true_and, List.append_assoc] at h
      obtain ⟨h1, h2⟩ := ser_inj c d _ _ (ha c (by simp)) (hb d (by simp)) h
      obtain ⟨h3, h4⟩ := serList_inj cs ds _ _ (fun j hj => ha j (by simp [hj])) (fun j hj => hb j (by simp [hj])) h2
      exact ⟨by rw [h1, h3], h4⟩

theorem serEntries_inj : ∀ (a b : List (String × Json)) (x y : Bytes), (∀ e ∈ a, Valid e.2) → (∀ e ∈ b, Valid e.2) →
    serEntries a ++ x = serEntries b ++ y → a = b ∧ x = y
  | [], b, x, y, _, _, h => by
    cases b with
    | nil => simpa [serEntries] using h
    | cons c cs => simp [serEntries] at h
  | (k, v) :: cs, b, x, y, ha, hb, h => by
    cases b with
    | nil => simp [serEntries] at h
    | cons d ds =>
      obtain ⟨k', v'⟩ := d
      simp only [serEntries, List.cons_append, List.cons.injEq, true_and, List.append_assoc] at h
      obtain ⟨h0, h'⟩ := string_inj h
      obtain ⟨h1, h2⟩ := ser_inj v v' _ _ (ha (k, v) (by simp)) (hb (k', v') (by simp)) h'
      obtain ⟨h3, h4⟩ := serEntries_inj cs ds _ _ (fun j hj => ha j (by simp [hj])) (fun j hj => hb j (by simp [hj])) h2
      exact ⟨by rw [h0, h1, h3], h4⟩

end

/-- The text of a value, followed by spaces. -/
def IsText (t : Bytes) (j : Json) : Prop := Valid j ∧ ∃ k, t = ser j ++ List.replicate k 0x20#8

open Classical in
/-- Values are read back, unless they are nested too deeply. -/
noncomputable def codec : JsonText where
  toText := ser
  fromText t := if h : ∃ j, IsText t j ∧ depth j ≤ 127 then some (Classical.choose h) else none

theorem readsBack_self {j : Json} (h : Valid j) : ReadsBack id j j := by
  induction h with
  | null => exact .null
  | bool b => exact .bool b
  | int z _ _ => exact .int z
  | float x _ => exact .float x
  | string s => exact .string s
  | array xs _ ih =>
    refine .array _ _ rfl ?_
    intro i x y hx hy
    rw [hx] at hy
    cases hy
    exact ih x (List.mem_of_getElem? hx)
  | object es hn _ ih =>
    refine .object _ _ hn (fun _ => rfl) ?_
    intro k x y hx hy
    rw [hx] at hy
    cases hy
    exact ih (k, x) (mem_of_lookup hx)

theorem codec_reads {j : Json} (hj : Valid j) (hd : depth j ≤ 127) (k : Nat) :
    codec.fromText (ser j ++ List.replicate k 0x20#8) = some j := by
  have h : ∃ j', IsText (ser j ++ List.replicate k 0x20#8) j' ∧ depth j' ≤ 127 := ⟨j, ⟨hj, k, rfl⟩, hd⟩
  obtain ⟨⟨hv, k', he⟩, _⟩ := Classical.choose_spec h
  unfold codec
  dsimp only
  rw [dif_pos h, ← (ser_inj _ _ _ _ hj hv he).1]

theorem codec_faithful : Faithful codec id :=
  fun j k hj hd => ⟨j, codec_reads hj hd k, readsBack_self hj⟩

theorem codec_refuses {j : Json} {k : Nat} (hj : Valid j) (hd : 127 < depth j) :
    codec.fromText (codec.toText j ++ List.replicate k 0x20#8) = none := by
  unfold codec
  dsimp only
  rw [dif_neg]
  rintro ⟨j', ⟨hv, k', he⟩, hd'⟩
  rw [(ser_inj _ _ _ _ hj hv he).1] at hd
  omega

end Pasture.Tiles3d.Codec
