import Verif.Spec.RoundTrip
import Verif.Lemmas.LasRoundTrip
import Verif.Lemmas.LasWriter
import Verif.Props.BufferConvert
import Verif.Props.Convert

/-!
# Conversions that can be undone
-/

namespace Pasture

open Spec

theorem int_back {p q : Prim} (hp : p.isInt = true) (hq : q.isInt = true) (hle : p.size ≤ q.size) {v : Bytes}
    (hv : v.length = p.size) : convertNumber q p (convertNumber p q v) = v := by
  obtain ⟨z, hz⟩ := holds_exists hp hv
  obtain ⟨r, w, h1, h2, h3⟩ := Props.C25_integers_wrap p q hp hq v (zeros q.size) z hz (by simp [zeros])
  obtain ⟨s, y, h4, h5, h6⟩ := Props.C25_integers_wrap q p hq hp r (zeros p.size) w h2 (by simp [zeros])
  rw [run_scalar p q hv (by simp [zeros])] at h1
  cases h1
  rw [run_scalar q p (convertNumber_length _ _ _) (by simp [zeros])] at h4
  cases h4
  have hd : (2 : Int) ^ (8 * p.size) ∣ 2 ^ (8 * q.size) := pow_dvd_pow _ (by omega)
  have h7 : w % 2 ^ (8 * p.size) = z % 2 ^ (8 * p.size) := by
    rw [← Int.emod_emod_of_dvd w hd, h3, Int.emod_emod_of_dvd z hd]
  have : y = z := range_unique hp h5.range hz.range (h6.trans h7)
  rw [this] at h5
  exact holds_bytes h5 hz

theorem float_back {p : Prim} (hp : p.isInt = true) {v : Bytes} (hv : v.length = p.size) :
    (p.size ≤ 4 → convertNumber .f64 p (convertNumber p .f64 v) = v) ∧
    (p.size ≤ 2 → convertNumber .f32 p (convertNumber p .f32 v) = v) := by
  obtain ⟨z, hz⟩ := holds_exists hp hv
  obtain ⟨h64, h32⟩ := Props.C63_int_float_int p hp v (zeros 8) (zeros p.size) z hz (by simp [zeros])
  obtain ⟨_, h32⟩ := Props.C63_int_float_int p hp v (zeros 4) (zeros p.size) z hz (by simp [zeros])
  have hr := hz.range
  constructor
  · intro hs
    obtain ⟨r, h1, h2⟩ := h64 (by revert hr hs hp; cases p <;> simp [Prim.lo, Prim.hi, Prim.size, Prim.isInt] <;> omega) (by simp [zeros])
    rw [run_scalar p .f64 hv (by simp [zeros, Prim.size])] at h1
    cases h1
    rw [run_scalar .f64 p (convertNumber_length _ _ _) (by simp [zeros])] at h2
    exact Except.ok.inj h2
  · intro hs
    obtain ⟨r, h1, h2⟩ := h32 (by revert hr hs hp; cases p <;> simp [Prim.lo, Prim.hi, Prim.size, Prim.isInt] <;> omega) (by simp [zeros])
    rw [run_scalar p .f32 hv (by simp [zeros, Prim.size])] at h1
    cases h1
    rw [run_scalar .f32 p (convertNumber_length _ _ _) (by simp [zeros])] at h2
    exact Except.ok.inj h2

theorem single_back {v : Bytes} (hv : v.length = 4) (hn : ∀ x, HoldsF32 v x → x.isNaN = false) :
    convertNumber .f64 .f32 (convertNumber .f32 .f64 v) = v := by
  obtain ⟨x, hx⟩ := holdsF32_exists hv
  obtain ⟨r, y, h1, _, _, _, _, h2⟩ := Props.C63_single_to_double v (zeros 8) (zeros 4) x hx (by simp [zeros]) (by simp [zeros]) (hn x hx)
  rw [run_scalar .f32 .f64 hv (by simp [zeros, Prim.size])] at h1
  cases h1
  rw [run_scalar .f64 .f32 (convertNumber_length _ _ _) (by simp [zeros, Prim.size])] at h2
  exact Except.ok.inj h2

/-- Numbers. -/
theorem number_back {p q : Prim} (h : keeps p q = true) (hne : p ≠ q) {v : Bytes} (hv : v.length = p.size)
    (hn : p = .f32 → ∀ x, HoldsF32 v x → x.isNaN = false) : convertNumber q p (convertNumber p q v) = v := by
  by_cases hp : p.isInt = true
  · by_cases hq : q.isInt = true
    · refine int_back hp hq ?_ hv
      revert h hp hq hne
      cases p <;> cases q <;> decide
    · obtain ⟨h64, h32⟩ := float_back hp hv
      have : q = .f32 ∨ q = .f64 := by revert hq; cases q <;> decide
      rcases this with rfl | rfl
      · exact h32 (by revert h hp; cases p <;> decide)
      · exact h64 (by revert h hp; cases p <;> decide)
  · have : p = .f32 ∧ q = .f64 := by revert h hp hne; cases p <;> cases q <;> decide
    obtain ⟨rfl, rfl⟩ := this
    exact single_back hv (hn rfl)

theorem window_eq_three {v : Bytes} {k : Nat} (hv : v.length = 3 * k) :
    window v 0 k ++ window v k k ++ window v (2 * k) k = v := by
  unfold window
  rw [List.drop_zero, List.take_drop, List.take_drop, show k + k = 2 * k by omega, show 2 * k + k = 3 * k by omega,
    ← hv, List.take_length]
  have h1 : v.take k ++ (v.take (2 * k)).drop k = v.take (2 * k) := by
    conv_rhs => rw [← List.take_append_drop k (v.take (2 * k))]
    rw [List.take_take, Nat.min_eq_left (by omega)]
  rw [h1, List.take_append_drop]

/-- Vectors. -/
theorem vector_back {p q : Prim} (h : keeps p q = true) (hne : p ≠ q) {v : Bytes} (hv : v.length = 3 * p.size)
    (hn : p = .f32 → ∀ i < 3, ∀ x, HoldsF32 (window v (i * 4) 4) x → x.isNaN = false) :
    convertVector q p (convertVector p q v) = v := by
  have hl : ∀ i < 3, (window v (i * p.size) p.size).length = p.size := by
    intro i hi
    unfold window
    rw [List.length_take, List.length_drop, hv]
    have : (i + 1) * p.size ≤ 3 * p.size := Nat.mul_le_mul_right _ (by omega)
    rw [Nat.add_mul] at this
    omega
  have key : ∀ i < 3, convertNumber q p (convertNumber p q (window v (i * p.size) p.size)) = window v (i * p.size) p.size := by
    intro i hi
    refine number_back h hne (hl i hi) ?_
    rintro rfl
    exact hn rfl i hi
  have k0 := key 0 (by omega)
  have k1 := key 1 (by omega)
  have k2 := key 2 (by omega)
  rw [Nat.zero_mul] at k0
  rw [Nat.one_mul] at k1
  obtain ⟨w0, w1, w2⟩ := Las.window_three (convertNumber_length p q (window v 0 p.size)) (convertNumber_length p q (window v p.size p.size))
    (convertNumber_length p q (window v (2 * p.size) p.size))
  unfold convertVector
  rw [w0, w1, w2, k0, k1, k2]
  exact window_eq_three hv

/-- Attribute values. -/
theorem value_back {a b : DataType} (h : Keeps a b) :
    ∃ f g, conversion a b = some f ∧ conversion b a = some g ∧
      ∀ v : Bytes, v.length = a.size → (b ≠ a → FreeOfNaN a v) → g (f v) = v := by
  by_cases hab : a = b
  · subst hab
    refine ⟨id, id, ?_, ?_, fun _ _ _ => rfl⟩ <;> simp [conversion]
  · rcases h with h | ⟨p, q, hp, hq, hk⟩ | ⟨p, q, hp, hq, hk⟩
    · exact absurd h hab
    · have hne : p ≠ q := by
        rintro rfl
        exact hab ((scalarType_some hp).trans (scalarType_some hq).symm)
      refine ⟨convertNumber p q, convertNumber q p, by simp [conversion, hab, hp, hq], by simp [conversion, Ne.symm hab, hp, hq], ?_⟩
      intro v hv hn
      refine number_back hk hne ?_ ?_
      · rw [hv, scalarType_some hp]
        cases p <;> rfl
      · rintro rfl
        exact (hn (Ne.symm hab)).1 hp
    · have hne : p ≠ q := by
        rintro rfl
        apply hab
        revert hp hq
        cases a <;> cases b <;> simp [componentType] <;> rintro rfl <;> simp
      have ha := scalar_of_component hp
      have hb := scalar_of_component hq
      refine ⟨convertVector p q, convertVector q p, by simp [conversion, hab, ha, hb, hp, hq],
        by simp [conversion, Ne.symm hab, ha, hb, hp, hq], ?_⟩
      intro v hv hn
      refine vector_back hk hne ?_ ?_
      · rw [hv]
        revert hp
        cases a <;> simp [componentType] <;> rintro rfl <;> rfl
      · rintro rfl
        exact (hn (Ne.symm hab)).2 hp

/-! ## Points -/

theorem find_member {l : PointLayout} (hl : Solid l) {m : Member} (hm : m ∈ l.attributes) {name : String} (hn : m.name = name) :
    l.attributes.find? (fun m => m.name = name) = some m := (Props.getByName_iff l hl.names name m).2 ⟨hm, hn⟩

theorem same_name {l : PointLayout} (hl : Solid l) {m t : Member} (hm : m ∈ l.attributes) (ht : t ∈ l.attributes)
    (h : t.name = m.name) : t = m := by
  have h1 := find_member hl hm rfl
  have h2 := find_member hl ht h
  rw [h1] at h2
  exact (Option.some.inj h2).symm

section
variable {ls lt : PointLayout} (hs : Solid ls) (ht : Solid lt) (h : Roomier ls lt)
include hs ht h

/-- There. -/
theorem there_some : ∀ t ∈ lt.attributes, named ls t.name → (defaultPlan ls t.definition).isSome := by
  rintro t ht' ⟨m, hm, hn⟩
  obtain ⟨t', ht'', hn', hk⟩ := h m hm
  obtain rfl := same_name ht ht' ht'' (hn'.trans hn)
  obtain ⟨f, _, hf, _⟩ := value_back hk
  unfold defaultPlan
  rw [show t'.definition.name = t'.name from rfl, find_member hs hm hn]
  dsimp only
  rw [show t'.definition.datatype = t'.datatype from rfl, hf]
  rfl

omit hs in
/-- And back. -/
theorem back_some : ∀ m ∈ ls.attributes, (defaultPlan lt m.definition).isSome := by
  intro m hm
  obtain ⟨t, htm, hn, hk⟩ := h m hm
  obtain ⟨_, g, _, hg, _⟩ := value_back hk
  unfold defaultPlan
  rw [show m.definition.name = m.name from rfl, find_member ht htm hn]
  dsimp only
  rw [show m.definition.datatype = m.datatype from rfl, hg]
  rfl

theorem point_back {r : Bytes} (hr : r.length = ls.size) (hc : FreeOfNaNs ls lt (pointOf ls r)) :
    (defaultPlan lt).apply ((defaultPlan ls).apply (pointOf ls r) (zeroPoint lt)) (zeroPoint ls) = pointOf ls r := by
  unfold pointOf zeroPoint
  rw [show ∀ (plan : Plan) (s t : Point), plan.apply s t = t.map fun (d, old) =>
    (d, match plan d with | some r => (match s.get r.source with | some v => r.value v | none => old) | none => old) from fun _ _ _ => rfl]
  rw [List.map_map]
  apply List.map_congr_left
  intro m hm
  obtain ⟨t, htm, hn, hk⟩ := h m hm
  obtain ⟨f, g, hf, hg, hback⟩ := value_back hk
  have hget : Point.get (ls.attributes.map fun m => (m.definition, window r m.offset m.size)) m.definition =
      some (window r m.offset m.size) := Las.lookup_map_def (g := fun m => window r m.offset m.size) hm hs.names
  have hz : Point.get (lt.attributes.map fun m => (m.definition, List.replicate m.size (0 : Byte))) t.definition =
      some (List.replicate t.size 0) := Las.lookup_map_def (g := fun m => List.replicate m.size (0 : Byte)) htm ht.names
  have p1 : defaultPlan ls t.definition = some ⟨m.definition, f⟩ := by
    unfold defaultPlan
    rw [show t.definition.name = t.name from rfl, find_member hs hm hn.symm]
    dsimp only
    rw [show t.definition.datatype = t.datatype from rfl, hf]
    rfl
  have p2 : defaultPlan lt m.definition = some ⟨t.definition, g⟩ := by
    unfold defaultPlan
    rw [show m.definition.name = m.name from rfl, find_member ht htm hn]
    dsimp only
    rw [show m.definition.datatype = m.datatype from rfl, hg]
    rfl
  have hmid := Props.apply_get (defaultPlan ls) (ls.attributes.map fun m => (m.definition, window r m.offset m.size))
    (lt.attributes.map fun m => (m.definition, List.replicate m.size (0 : Byte))) t.definition
  rw [hz, p1] at hmid
  simp only [Option.map_some, hget] at hmid
  simp only [Function.comp_apply, p2, hmid]
  rw [hback]
  · unfold window
    rw [List.length_take, List.length_drop, hr]
    have := hs.inside m hm
    have e : m.size = m.datatype.size := rfl
    omega
  · intro hne
    exact hc m hm t htm hn hne _ hget

end

end Pasture

namespace Pasture

open Spec

/-! ## Values that are lost -/

/-- A number of type `p` that does not survive in `q`. -/
def lost (p q : Prim) : Bytes :=
  match p, q with
  | .f32, _ => writeNum .f32 (.single ⟨false, 0x3F000000⟩)
  | .f64, .f32 => writeNum .f64 (.double ⟨false, 0x3FF0000000000001⟩)
  | .f64, _ => writeNum .f64 (.double ⟨false, 0x3FE0000000000000⟩)
  | p, .f32 => writeNum p (.int (2 ^ 24 + 1))
  | p, .f64 => writeNum p (.int (2 ^ 53 + 1))
  | p, q => writeNum p (.int (2 ^ (8 * q.size)))

theorem lost_number {p q : Prim} (h : keeps p q = false) :
    (lost p q).length = p.size ∧ convertNumber q p (convertNumber p q (lost p q)) ≠ lost p q := by
  revert h
  cases p <;> cases q <;> decide +kernel

theorem notNaN_of_small {v : Bytes} (h : littleEndian v % 2 ^ 31 ≤ 0x7F800000) : ∀ x, HoldsF32 v x → x.isNaN = false := by
  intro x hx
  have hb := hx.bits
  have hr := hx.range
  have h1 : x.mag ≤ 0x7F800000 := by
    rw [hb] at h
    split at h <;> omega
  have h2 : FloatFormat.f32.infMag = 0x7F800000 := by decide +kernel
  unfold Flt.isNaN
  rw [h2]
  exact decide_eq_false (by omega)

theorem lost_notNaN {q : Prim} : ∀ x, HoldsF32 (lost .f32 q) x → x.isNaN = false := by
  apply notNaN_of_small
  cases q <;> decide +kernel

theorem littleEndian_zeros (n : Nat) : littleEndian (zeros n) = 0 := by
  unfold zeros
  induction n with
  | zero => rfl
  | succ n ih =>
    unfold littleEndian at ih ⊢
    rw [List.replicate_succ, List.map_cons, Nat.ofDigits_cons, ih]
    rfl

theorem window_zeros (n o k : Nat) : ∃ j, window (zeros n) o k = zeros j := by
  unfold window zeros
  exact ⟨_, by rw [List.drop_replicate, List.take_replicate]⟩

theorem zeros_free (a : DataType) (n : Nat) : FreeOfNaN a (zeros n) := by
  refine ⟨fun _ => notNaN_of_small (by rw [littleEndian_zeros]; omega), fun _ i _ => ?_⟩
  obtain ⟨j, hj⟩ := window_zeros n (i * 4) 4
  rw [hj]
  exact notNaN_of_small (by rw [littleEndian_zeros]; omega)

/-- Attribute values. -/
theorem value_lost {a b : DataType} (h : ¬ Keeps a b) {f g : Bytes → Bytes} (hf : conversion a b = some f)
    (hg : conversion b a = some g) : ∃ v, v.length = a.size ∧ FreeOfNaN a v ∧ g (f v) ≠ v := by
  have hab : a ≠ b := fun e => h (.inl e)
  unfold conversion at hf hg
  rw [if_neg hab] at hf
  rw [if_neg (Ne.symm hab)] at hg
  cases hp : scalarType a with
  | some p =>
    have hc : componentType a = none := by
      cases hc : componentType a with
      | none => rfl
      | some r => rw [scalar_of_component hc] at hp; cases hp
    cases hq : scalarType b with
    | none => rw [hp, hq, hc] at hf; simp at hf
    | some q =>
      rw [hp, hq] at hf hg
      simp only [Option.some.injEq] at hf hg
      subst hf hg
      have hk : keeps p q = false := by
        rw [Bool.eq_false_iff]
        exact fun hk => h (.inr (.inl ⟨p, q, hp, hq, hk⟩))
      obtain ⟨h1, h2⟩ := lost_number hk
      refine ⟨lost p q, ?_, ⟨?_, ?_⟩, h2⟩
      · rw [h1, scalarType_some hp]
        cases p <;> rfl
      · intro he
        rw [hp] at he
        cases he
        exact lost_notNaN
      · intro he
        rw [hc] at he
        cases he
  | none =>
    cases hp' : componentType a with
    | none => rw [hp, hp'] at hf; simp at hf
    | some p =>
      cases hq' : componentType b with
      | none => rw [hp, hp', hq'] at hf; simp at hf
      | some q =>
        have hq := scalar_of_component hq'
        rw [hp, hq, hp', hq'] at hf
        rw [hp, hq, hp', hq'] at hg
        simp only [Option.some.injEq] at hf hg
        subst hf hg
        have hk : keeps p q = false := by
          rw [Bool.eq_false_iff]
          exact fun hk => h (.inr (.inr ⟨p, q, hp', hq', hk⟩))
        obtain ⟨h1, h2⟩ := lost_number hk
        have hz : (zeros p.size).length = p.size := by simp [zeros]
        obtain ⟨w0, w1, w2⟩ := Las.window_three h1 hz hz
        refine ⟨lost p q ++ zeros p.size ++ zeros p.size, ?_, ⟨?_, ?_⟩, ?_⟩
        · rw [List.length_append, List.length_append, h1, hz]
          revert hp'
          cases a <;> simp [componentType] <;> rintro rfl <;> rfl
        · intro he
          rw [hp] at he
          cases he
        · intro he i hi
          rw [hp'] at he
          cases he
          have e : Prim.f32.size = 4 := rfl
          rw [e] at w0 w1 w2 ⊢
          have : i = 0 ∨ i = 1 ∨ i = 2 := by omega
          rcases this with rfl | rfl | rfl
          · rw [w0]
            exact lost_notNaN
          · rw [show 1 * 4 = 4 from rfl, w1]
            exact notNaN_of_small (by rw [littleEndian_zeros]; omega)
          · rw [w2]
            exact notNaN_of_small (by rw [littleEndian_zeros]; omega)
        · intro he
          apply h2
          have hwin := congrArg (fun v => window v 0 p.size) he
          simp only [w0] at hwin
          unfold convertVector at hwin
          rw [w0, w1, w2] at hwin
          obtain ⟨u0, _, _⟩ := Las.window_three (convertNumber_length p q (lost p q)) (convertNumber_length p q (zeros p.size))
            (convertNumber_length p q (zeros p.size))
          obtain ⟨t0, _, _⟩ := Las.window_three (k := p.size)
            (convertNumber_length q p (window (convertNumber p q (lost p q) ++ convertNumber p q (zeros p.size) ++ convertNumber p q (zeros p.size)) 0 q.size))
            (convertNumber_length q p (window (convertNumber p q (lost p q) ++ convertNumber p q (zeros p.size) ++ convertNumber p q (zeros p.size)) q.size q.size))
            (convertNumber_length q p (window (convertNumber p q (lost p q) ++ convertNumber p q (zeros p.size) ++ convertNumber p q (zeros p.size)) (2 * q.size) q.size))
          rw [t0, u0] at hwin
          exact hwin

/-- A record that is zero but for one value. -/
def recordWith (l : PointLayout) (m : Member) (v : Bytes) : Bytes :=
  zeros m.offset ++ v ++ zeros (l.size - m.offset - m.size)

theorem recordWith_length {l : PointLayout} (hl : Solid l) {m : Member} (hm : m ∈ l.attributes) {v : Bytes} (hv : v.length = m.size) :
    (recordWith l m v).length = l.size := by
  have := hl.inside m hm
  simp only [recordWith, zeros, List.length_append, List.length_replicate, hv]
  omega

theorem recordWith_same {l : PointLayout} {m : Member} {v : Bytes} (hv : v.length = m.size) :
    window (recordWith l m v) m.offset m.size = v := by
  unfold window recordWith
  rw [List.append_assoc, List.drop_left' (by simp [zeros]), List.take_left' hv]

theorem recordWith_other {l : PointLayout} {m n : Member} {v : Bytes} (hv : v.length = m.size)
    (h : m.offset + m.size ≤ n.offset ∨ n.offset + n.size ≤ m.offset) :
    ∃ j, window (recordWith l m v) n.offset n.size = zeros j := by
  rcases h with h | h
  · unfold window recordWith
    have hlen : (zeros m.offset ++ v).length = m.offset + m.size := by simp [zeros, hv]
    rw [List.drop_append, List.drop_of_length_le (by omega), List.nil_append]
    exact window_zeros _ _ _
  · unfold window recordWith
    rw [List.append_assoc, List.drop_append_of_le_length (by simp [zeros]; omega),
      List.take_append_of_le_length (by simp [zeros]; omega), zeros, List.drop_replicate, List.take_replicate]
    exact ⟨_, rfl⟩

theorem members_apart {l : PointLayout} (hl : Solid l) {m n : Member} (hm : m ∈ l.attributes) (hn : n ∈ l.attributes) (hne : n ≠ m) :
    m.offset + m.size ≤ n.offset ∨ n.offset + n.size ≤ m.offset := by
  obtain ⟨i, hi, rfl⟩ := List.mem_iff_getElem.1 hm
  obtain ⟨j, hj, rfl⟩ := List.mem_iff_getElem.1 hn
  have h := List.pairwise_iff_getElem.1 hl.apart
  rcases Nat.lt_trichotomy i j with hij | rfl | hij
  · exact h i j hi hj hij
  · exact absurd rfl hne
  · exact (h j i hj hi hij).symm

/-- Points: if both conversions are possible but a type does not keep its values, some point is changed. -/
theorem point_lost {ls lt : PointLayout} (hs : Solid ls) (ht : Solid lt) (h : ¬ Roomier ls lt)
    (hthere : ∀ t ∈ lt.attributes, named ls t.name → (defaultPlan ls t.definition).isSome)
    (hback : ∀ m ∈ ls.attributes, (defaultPlan lt m.definition).isSome) :
    ∃ r, r.length = ls.size ∧ FreeOfNaNs ls lt (pointOf ls r) ∧
      (defaultPlan lt).apply ((defaultPlan ls).apply (pointOf ls r) (zeroPoint lt)) (zeroPoint ls) ≠ pointOf ls r := by
  unfold Roomier at h
  push Not at h
  obtain ⟨m, hm, hno⟩ := h
  have hb := hback m hm
  unfold defaultPlan at hb
  cases hfind : lt.attributes.find? (fun t => t.name = m.definition.name) with
  | none => rw [hfind] at hb; simp at hb
  | some t =>
    obtain ⟨htm, hn⟩ := (Props.getByName_iff lt ht.names m.name t).1 hfind
    have hk := hno t htm hn
    rw [hfind] at hb
    dsimp only at hb
    rw [Option.isSome_map, show m.definition.datatype = m.datatype from rfl] at hb
    obtain ⟨g, hg⟩ := Option.isSome_iff_exists.1 hb
    have hth := hthere t htm ⟨m, hm, hn.symm⟩
    have hfs : ls.attributes.find? (fun m => m.name = t.definition.name) = some m := find_member hs hm hn.symm
    unfold defaultPlan at hth
    rw [hfs] at hth
    dsimp only at hth
    rw [Option.isSome_map, show t.definition.datatype = t.datatype from rfl] at hth
    obtain ⟨f, hf⟩ := Option.isSome_iff_exists.1 hth
    obtain ⟨v, hv, hfree, hlost⟩ := value_lost hk hf hg
    have hv' : v.length = m.size := hv
    have hget : ∀ n ∈ ls.attributes, Point.get (pointOf ls (recordWith ls m v)) n.definition =
        some (window (recordWith ls m v) n.offset n.size) := fun n hn =>
      Las.lookup_map_def (g := fun n => window (recordWith ls m v) n.offset n.size) hn hs.names
    refine ⟨recordWith ls m v, recordWith_length hs hm hv', ?_, ?_⟩
    · intro n hn' t' _ _ _ w hw
      rw [hget n hn'] at hw
      cases hw
      by_cases hnm : n = m
      · subst hnm
        rw [recordWith_same hv']
        exact hfree
      · obtain ⟨j, hj⟩ := recordWith_other (l := ls) hv' (members_apart hs hm hn' hnm)
        rw [hj]
        exact zeros_free _ _
    · intro he
      apply hlost
      have hz : Point.get (zeroPoint lt) t.definition = some (List.replicate t.size 0) :=
        Las.lookup_map_def (g := fun m => List.replicate m.size (0 : Byte)) htm ht.names
      have hz' : Point.get (zeroPoint ls) m.definition = some (List.replicate m.size 0) :=
        Las.lookup_map_def (g := fun m => List.replicate m.size (0 : Byte)) hm hs.names
      have p1 : defaultPlan ls t.definition = some ⟨m.definition, f⟩ := by
        unfold defaultPlan
        rw [hfs]
        dsimp only
        rw [show t.definition.datatype = t.datatype from rfl, hf]
        rfl
      have p2 : defaultPlan lt m.definition = some ⟨t.definition, g⟩ := by
        unfold defaultPlan
        rw [hfind]
        dsimp only
        rw [show m.definition.datatype = m.datatype from rfl, hg]
        rfl
      have hmid := Props.apply_get (defaultPlan ls) (pointOf ls (recordWith ls m v)) (zeroPoint lt) t.definition
      rw [hz, p1] at hmid
      simp only [Option.map_some, hget m hm, recordWith_same hv'] at hmid
      have hend := Props.apply_get (defaultPlan lt) ((defaultPlan ls).apply (pointOf ls (recordWith ls m v)) (zeroPoint lt))
        (zeroPoint ls) m.definition
      rw [hz', p2] at hend
      simp only [Option.map_some, hmid] at hend
      rw [he, hget m hm, recordWith_same hv'] at hend
      exact (Option.some.inj hend).symm

end Pasture
