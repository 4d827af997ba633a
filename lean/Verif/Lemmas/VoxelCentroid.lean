import Verif.Lemmas.Voxel
import Verif.Lemmas.Numbers
import Verif.Props.TypedViews
import Verif.Props.UntypedPoint
import Verif.Lemmas.Collect
import Verif.Lemmas.LasReader

/-!
# The attribute values of a centroid
-/

namespace Pasture.Voxel

open Spec Flt BorrowedBuffer Props

/-! ## Numbers and their bytes -/

theorem toIntSat_range {F : FloatFormat} (x : Flt F) {lo hi : Int} (h0 : lo ≤ 0) (h1 : 0 ≤ hi) :
    lo ≤ x.toIntSat lo hi ∧ x.toIntSat lo hi ≤ hi := by
  unfold toIntSat
  split_ifs <;> omega

theorem cast_f32_mag (x : F64) : (x.cast .f32).mag < 2 ^ 31 := by
  unfold Flt.cast
  split_ifs
  · decide +kernel
  · show FloatFormat.f32.infMag < 2 ^ 31
    decide +kernel
  · show roundMag _ _ _ < _
    have h : roundMag .f32 (x.sunits * FloatFormat.f32.one).natAbs FloatFormat.f64.one ≤ FloatFormat.f32.infMag := by
      unfold roundMag
      exact Nat.min_le_right _ _
    have : FloatFormat.f32.infMag < 2 ^ 31 := by decide +kernel
    exact Nat.lt_of_le_of_lt h this

/-- A double that fits into its 64 bits. -/
def Fits (x : F64) : Prop := x.mag < 2 ^ 63

theorem fits_of_read (b : Bytes) {x : F64} (h : readNum .f64 b = .double x) : Fits x := by
  unfold readNum Flt.ofBits at h
  cases h
  show _ % 2 ^ (FloatFormat.f64.mantBits + FloatFormat.f64.expBits) < 2 ^ 63
  exact Nat.mod_lt _ (by decide)

theorem fits_of_le {x : F64} (h : x.mag ≤ FloatFormat.f64.infMag) : Fits x := by
  have : FloatFormat.f64.infMag < 2 ^ 63 := by decide +kernel
  exact Nat.lt_of_le_of_lt h this

theorem fits_ofUnits (a : Int) (d : Nat) (z : Bool) : Fits (ofUnits .f64 a d z) := by
  apply fits_of_le
  unfold ofUnits roundMag
  exact Nat.min_le_right _ _

theorem fits_nan : Fits (nan .f64) := by
  show FloatFormat.f64.nanMag < 2 ^ 63
  decide +kernel

theorem fits_div {x y : F64} : Fits (x.div y) := by
  unfold div
  split_ifs
  · exact fits_nan
  · exact fits_nan
  · exact fits_of_le (Nat.le_refl _)
  · exact fits_of_le (Nat.zero_le _)
  · exact fits_nan
  · exact fits_of_le (Nat.le_refl _)
  · exact fits_ofUnits _ _ _
  · exact fits_ofUnits _ _ _

theorem fits_mean (xs : List F64) : Fits (computedMean xs) := fits_div

theorem fits_cast (x : F32) : Fits (x.cast .f64) := by
  unfold Flt.cast
  split_ifs
  · exact fits_nan
  · exact fits_of_le (Nat.le_refl _)
  · exact fits_ofUnits _ _ _

theorem fits_asF64 (p : Prim) (b : Bytes) : Fits (asF64 (readNum p b)) := by
  unfold asF64
  cases hn : readNum p b with
  | int z => exact fits_ofUnits _ _ _
  | single x => exact fits_cast x
  | double x =>
    cases p with
    | f64 => exact fits_of_read b hn
    | f32 => cases hn
    | u8 | i8 | u16 | i16 | u32 | i32 | u64 | i64 => cases hn

theorem lo_hi (p : Prim) : p.lo ≤ 0 ∧ 0 ≤ p.hi := by cases p <;> decide

theorem read_cast_double (p : Prim) {x : F64} (hx : Fits x) : readNum p (castBytes p (.double x)) = asNum p (.double x) := by
  unfold castBytes
  have hint : p.isInt = true → asNum p (.double x) = .int (x.toIntSat p.lo p.hi) := by
    intro hp
    cases p <;> first | rfl | cases hp
  cases hp : p.isInt with
  | true =>
    rw [hint hp]
    exact (holds_read hp (holds_write (toIntSat_range x (lo_hi p).1 (lo_hi p).2))).trans rfl
  | false =>
    cases p with
    | f64 => exact holdsF64_read (holdsF64_write hx)
    | f32 => exact holdsF32_read (holdsF32_write (cast_f32_mag x))
    | u8 | i8 | u16 | i16 | u32 | i32 | u64 | i64 => cases hp

theorem read_range {p : Prim} (hp : p.isInt = true) {b : Bytes} (hb : b.length = p.size) {z : Int}
    (h : readNum p b = .int z) : p.lo ≤ z ∧ z ≤ p.hi := by
  obtain ⟨y, hy⟩ := holds_exists hp hb
  have e := (holds_read hp hy)
  rw [e] at h
  cases h
  exact hy.range

theorem read_cast_int {p : Prim} (hp : p.isInt = true) {z : Int} (hz : p.lo ≤ z ∧ z ≤ p.hi) :
    readNum p (castBytes p (.int z)) = .int z := by
  unfold castBytes
  have e : asNum p (.int z) = .int z := by
    rw [asNum_int hp]
    congr 1
    have := wrapInt_spec hp z
    exact range_unique hp ⟨this.1, this.2.1⟩ hz this.2.2
  rw [e]
  exact holds_read hp (holds_write hz)

theorem toDouble_eq (n : Num) : toDouble n = asF64 n := rfl

/-! ## Values of the points -/

section
variable {β : Type} [BorrowedBuffer β] {b : β} {l : PointLayout} {ps : List Point}

theorem value_at (hl : Solid l) (h : ShowsPoints b l ps) {m : Member} (hm : m ∈ l.attributes) {i : Nat}
    (hi : i < ps.length) : ∃ v, valueAt b m.definition.datatype m.definition i = .ok v ∧
      (ps[i]?.bind fun p => p.get m.definition) = some v ∧ v.length = m.size := by
  obtain ⟨xs, hx, ha⟩ := column_some hl h hm
  obtain ⟨c1, c2⟩ := column_get hx
  have hxi : xs[i]? = some xs[i] := List.getElem?_eq_getElem (by omega)
  refine ⟨xs[i], ?_, ?_, ha.getElem hxi⟩
  · unfold valueAt
    rw [(C62_attribute_view_checks b l hl ps h _ _).1 rfl m hm rfl]
    show AttributeView.get b ⟨m.datatype, m⟩ i = _
    rw [C62_attribute_at b l ps h m hm i (zeros m.size) (by simp [zeros]), h.getAttribute_eq _ _ _ (by simp [zeros]; rfl), c2, hxi]
    rfl
  · have := c2 i
    rw [hxi] at this
    exact this

theorem values_cons (d : AttrDef) (i : Nat) (is : List Nat) {v : Bytes} (h : (ps[i]?.bind fun p => p.get d) = some v) :
    valuesAt ps (i :: is) d = v :: valuesAt ps is d := by
  unfold valuesAt
  rw [List.filterMap_cons, h]

theorem values_length (hl : Solid l) (h : ShowsPoints b l ps) {m : Member} (hm : m ∈ l.attributes) :
    ∀ (is : List Nat), (∀ i ∈ is, i < ps.length) → (valuesAt ps is m.definition).length = is.length ∧
      ∀ v ∈ valuesAt ps is m.definition, v.length = m.size := by
  intro is
  induction is with
  | nil => intro _; exact ⟨rfl, by intro v hv; cases hv⟩
  | cons i is ih =>
    intro hi
    obtain ⟨v, _, h2, h3⟩ := value_at hl h hm (hi i List.mem_cons_self)
    obtain ⟨i1, i2⟩ := ih fun j hj => hi j (List.mem_cons_of_mem _ hj)
    rw [values_cons _ _ _ h2]
    refine ⟨by simp [i1], ?_⟩
    intro w hw
    rcases List.mem_cons.1 hw with rfl | hw
    · exact h3
    · exact i2 w hw

theorem fold_values {σ : Type} (hl : Solid l) (h : ShowsPoints b l ps) {m : Member} (hm : m ∈ l.attributes)
    {body : σ → Nat → Out σ} {f : σ → Bytes → σ}
    (hbody : ∀ acc i v, v.length = m.size → valueAt b m.definition.datatype m.definition i = .ok v →
      body acc i = .ok (f acc v)) :
    ∀ (is : List Nat), (∀ i ∈ is, i < ps.length) → ∀ acc,
      forLoop is acc body = .ok ((valuesAt ps is m.definition).foldl f acc) := by
  intro is
  induction is with
  | nil => intro _ acc; rfl
  | cons i is ih =>
    intro hi acc
    obtain ⟨v, h1, h2, h3⟩ := value_at hl h hm (hi i List.mem_cons_self)
    rw [forLoop_cons, hbody acc i v h3 h1, values_cons _ _ _ h2]
    exact ih (fun j hj => hi j (List.mem_cons_of_mem _ hj)) _

/-! ## Averages -/

theorem average_num (hl : Solid l) (h : ShowsPoints b l ps) {m : Member} (hm : m ∈ l.attributes) {p : Prim}
    (hp : numberType m.definition.datatype = some p) (is : List Nat) (hi : ∀ i ∈ is, i < ps.length) :
    averageNum b m.definition m.definition.datatype is =
      .ok (computedMean ((valuesAt ps is m.definition).map fun v => asF64 (readNum p v))) := by
  unfold averageNum
  rw [fold_values hl h hm (f := fun acc v => acc.add (asF64 (readNum p v))) ?_ is hi]
  · unfold computedMean countF64
    rw [List.foldl_map, List.length_map, (values_length hl h hm is hi).1]
    rfl
  · intro acc i v _ hv
    unfold sumNumStep
    rw [hp]
    show (valueAt _ _ _ _).bind _ = _
    rw [hv]
    rfl

theorem fold_p3 {α : Type} (f g k : α → F64) : ∀ (xs : List α) (s : P3 F64),
    xs.foldl (fun s x => ⟨s.x.add (f x), s.y.add (g x), s.z.add (k x)⟩) s =
      ⟨(xs.map f).foldl Flt.add s.x, (xs.map g).foldl Flt.add s.y, (xs.map k).foldl Flt.add s.z⟩ := by
  intro xs
  induction xs with
  | nil => intro s; rfl
  | cons x xs ih =>
    intro s
    rw [List.foldl_cons, ih]
    rfl

/-- Component `j` of a vector, as `f64`. -/
def componentF64 (p : Prim) (j : Nat) (v : Bytes) : F64 := asF64 (readNum p (Converter.component p.size j v))

theorem average_vec (hl : Solid l) (h : ShowsPoints b l ps) {m : Member} (hm : m ∈ l.attributes) {p : Prim}
    (hp : vectorType m.definition.datatype = some p) (is : List Nat) (hi : ∀ i ∈ is, i < ps.length) :
    averageVec b m.definition m.definition.datatype is =
      .ok ⟨computedMean ((valuesAt ps is m.definition).map (componentF64 p 0)),
        computedMean ((valuesAt ps is m.definition).map (componentF64 p 1)),
        computedMean ((valuesAt ps is m.definition).map (componentF64 p 2))⟩ := by
  unfold averageVec
  dsimp only
  rw [fold_values hl h hm (f := fun s v => ⟨s.x.add (componentF64 p 0 v), s.y.add (componentF64 p 1 v),
    s.z.add (componentF64 p 2 v)⟩) ?_ is hi]
  · show Except.ok _ = _
    rw [fold_p3]
    unfold computedMean countF64
    rw [List.length_map, List.length_map, List.length_map, (values_length hl h hm is hi).1]
  · intro acc i v _ hv
    unfold sumVecStep
    rw [hp]
    show (valueAt _ _ _ _).bind _ = _
    rw [hv]
    rfl

/-! ## The greatest value -/

theorem notNaN_zero : (Flt.zero .f64).isNaN = false := by decide +kernel

theorem greatest_fold : ∀ (xs : List F64) (seen : List F64) (c : F64), c.isNaN = false → Greatest c seen →
    Greatest (xs.foldl (fun c x => if Flt.lt c x then x else c) c) (seen ++ xs.filter fun y => !y.isNaN) := by
  intro xs
  induction xs with
  | nil => intro seen c _ h; simpa using h
  | cons x xs ih =>
    intro seen c hc h
    rw [List.foldl_cons]
    cases hx : x.isNaN with
    | true =>
      have e : Flt.lt c x = false := by
        unfold Flt.lt
        rw [hx]
        simp
      rw [e, if_neg Bool.false_ne_true, List.filter_cons_of_neg (by simp [hx])]
      exact ih seen c hc h
    | false =>
      rw [List.filter_cons_of_pos (by simp [hx]), show seen ++ x :: xs.filter (fun y => !y.isNaN) =
        (seen ++ [x]) ++ xs.filter (fun y => !y.isNaN) by simp]
      cases hlt : Flt.lt c x with
      | true =>
        rw [if_pos rfl]
        refine ih _ x hx ⟨by simp, ?_⟩
        have hcx := (lt_rank hc hx).1 hlt
        intro y hy
        rcases List.mem_append.1 hy with hy | hy
        · have hyc := h.2 y hy
          have hyn : y.isNaN = false := by
            cases hn : y.isNaN with
            | false => rfl
            | true =>
              have : Flt.le y c = true := hyc
              unfold Flt.le at this
              rw [hn] at this
              cases this
          have := (le_rank hyn hc).1 hyc
          exact (le_rank hyn hx).2 (by omega)
        · rw [List.mem_singleton.1 hy]
          exact (le_rank hx hx).2 (Int.le_refl _)
      | false =>
        rw [if_neg Bool.false_ne_true]
        refine ih _ c hc ⟨List.mem_append_left _ h.1, ?_⟩
        intro y hy
        rcases List.mem_append.1 hy with hy | hy
        · exact h.2 y hy
        · rw [List.mem_singleton.1 hy]
          refine (le_rank hx hc).2 ?_
          by_contra hcc
          rw [(lt_rank hc hx).2 (by omega)] at hlt
          cases hlt

theorem max_pool (hl : Solid l) (h : ShowsPoints b l ps) {m : Member} (hm : m ∈ l.attributes) {p : Prim}
    (hp : numberType m.definition.datatype = some p) (is : List Nat) (hi : ∀ i ∈ is, i < ps.length) :
    ∃ x, maxPool b m.definition m.definition.datatype is = .ok x ∧ Fits x ∧
      Greatest x (Flt.zero .f64 ::
        ((valuesAt ps is m.definition).map fun v => asF64 (readNum p v)).filter fun y => !y.isNaN) := by
  refine ⟨((valuesAt ps is m.definition).map fun v => asF64 (readNum p v)).foldl
    (fun c x => if Flt.lt c x then x else c) (Flt.zero .f64), ?_, ?_, ?_⟩
  · unfold maxPool
    rw [List.foldl_map]
    refine fold_values hl h hm (f := fun c v => if Flt.lt c (asF64 (readNum p v)) then asF64 (readNum p v) else c) ?_ is hi _
    intro acc i v _ hv
    unfold maxPoolStep
    rw [hp]
    show (valueAt _ _ _ _).bind _ = _
    rw [hv]
    show (if _ then _ else _) = _
    split_ifs <;> rfl
  · have key : ∀ (vs : List Bytes) (c : F64), Fits c →
        Fits ((vs.map fun v => asF64 (readNum p v)).foldl (fun c x => if Flt.lt c x then x else c) c) := by
      intro vs
      induction vs with
      | nil => intro c hc; exact hc
      | cons v vs ih =>
        intro c hc
        rw [List.map_cons, List.foldl_cons]
        apply ih
        split_ifs
        · exact fits_asF64 p v
        · exact hc
    exact key _ _ (fits_of_le (Nat.zero_le _))
  · have := greatest_fold ((valuesAt ps is m.definition).map fun v => asF64 (readNum p v)) [Flt.zero .f64] (Flt.zero .f64)
      notNaN_zero ⟨List.mem_singleton.2 rfl, by
        intro y hy
        rw [List.mem_singleton.1 hy]
        exact (le_rank notNaN_zero notNaN_zero).2 (Int.le_refl _)⟩
    exact this

/-! ## The most common value -/

/-- The counts of the keys. -/
structure Counts (zs : List Int) (map : List (Int × Nat)) : Prop where
  counted : ∀ e ∈ map, e.2 = zs.count e.1 ∧ 0 < e.2
  present : ∀ z ∈ zs, ∃ e ∈ map, e.1 = z

theorem lookup_some_iff (map : List (Int × Nat)) (k : Int) : (map.lookup k).isSome = true ↔ ∃ e ∈ map, e.1 = k := by
  induction map with
  | nil => simp
  | cons e map ih =>
    rw [List.lookup_cons]
    by_cases hk : k = e.1
    · subst hk
      simp
    · rw [show (k == e.1) = false from beq_eq_false_iff_ne.2 hk]
      simp only [ih, List.mem_cons, exists_eq_or_imp]
      constructor
      · exact .inr
      · rintro (h | h)
        · exact absurd h.symm hk
        · exact h

theorem count_key {zs : List Int} {map : List (Int × Nat)} (h : Counts zs map) (z : Int) :
    Counts (zs ++ [z]) (countKey map z) := by
  unfold countKey
  by_cases hs : (map.lookup z).isSome = true
  · rw [if_pos hs]
    obtain ⟨e, he, hez⟩ := (lookup_some_iff map z).1 hs
    refine ⟨?_, ?_⟩
    · intro e' he'
      obtain ⟨e, he, rfl⟩ := List.mem_map.1 he'
      have := h.counted e he
      by_cases hk : e.1 = z
      · rw [if_pos hk]
        subst hk
        simp [List.count_append, this.1]
      · rw [if_neg hk]
        refine ⟨?_, this.2⟩
        rw [this.1, List.count_append, List.count_cons_of_ne (fun hc => hk hc.symm)]
        simp
    · intro y hy
      have : ∃ e ∈ map, e.1 = y := by
        rcases List.mem_append.1 hy with hy | hy
        · exact h.present y hy
        · rw [List.mem_singleton.1 hy]; exact ⟨e, he, hez⟩
      obtain ⟨e, he, rfl⟩ := this
      refine ⟨_, List.mem_map.2 ⟨e, he, rfl⟩, ?_⟩
      split_ifs <;> rfl
  · rw [if_neg hs]
    have hno : ∀ e ∈ map, e.1 ≠ z := fun e he hez => hs ((lookup_some_iff map z).2 ⟨e, he, hez⟩)
    refine ⟨?_, ?_⟩
    · intro e he
      rcases List.mem_append.1 he with he | he
      · have := h.counted e he
        refine ⟨?_, this.2⟩
        rw [this.1, List.count_append, List.count_cons_of_ne (fun hc => hno e he hc.symm)]
        simp
      · rw [List.mem_singleton.1 he]
        have : zs.count z = 0 := by
          rw [List.count_eq_zero]
          intro hz
          obtain ⟨e, he, hez⟩ := h.present z hz
          exact hno e he hez
        simp [List.count_append, this]
    · intro y hy
      rcases List.mem_append.1 hy with hy | hy
      · obtain ⟨e, he, hey⟩ := h.present y hy
        exact ⟨e, List.mem_append_left _ he, hey⟩
      · rw [List.mem_singleton.1 hy]
        exact ⟨(z, 1), by simp, rfl⟩

theorem count_all : ∀ (zs seen : List Int) (map : List (Int × Nat)), Counts seen map →
    Counts (seen ++ zs) (zs.foldl countKey map) := by
  intro zs
  induction zs with
  | nil => intro seen map h; simpa using h
  | cons z zs ih =>
    intro seen map h
    rw [List.foldl_cons, show seen ++ z :: zs = (seen ++ [z]) ++ zs by simp]
    exact ih _ _ (count_key h z)

theorem highest_fold : ∀ (es : List (Int × Nat)) (acc : Nat × Option Int),
    (acc.1 ≤ (es.foldl highestStep acc).1) ∧ (∀ e ∈ es, e.2 ≤ (es.foldl highestStep acc).1) ∧
      (es.foldl highestStep acc = acc ∨
        ∃ e ∈ es, es.foldl highestStep acc = (e.2, some e.1)) := by
  intro es
  induction es with
  | nil => intro acc; exact ⟨Nat.le_refl _, (by intro e he; cases he), .inl rfl⟩
  | cons a es ih =>
    intro acc
    rw [List.foldl_cons]
    obtain ⟨h1, h2, h3⟩ := ih (highestStep acc a)
    have hs : acc.1 ≤ (highestStep acc a).1 ∧ a.2 ≤ (highestStep acc a).1 := by
      unfold highestStep
      split_ifs <;> constructor <;> (try dsimp only) <;> omega
    refine ⟨by omega, ?_, ?_⟩
    · intro e he
      rcases List.mem_cons.1 he with rfl | he
      · omega
      · exact h2 e he
    · rcases h3 with h3 | ⟨e, he, h3⟩
      · rw [h3]
        unfold highestStep
        split_ifs
        · exact .inr ⟨a, List.mem_cons_self, rfl⟩
        · exact .inl rfl
      · exact .inr ⟨e, List.mem_cons_of_mem _ he, h3⟩

theorem most_common_of_counts {zs : List Int} (hne : zs ≠ []) {map es : List (Int × Nat)} (h : Counts zs map)
    (hp : es.Perm map) : ∃ z, (es.foldl highestStep (0, none)).2 = some z ∧ MostCommon z zs := by
  obtain ⟨_, h2, h3⟩ := highest_fold es (0, none)
  obtain ⟨y, hy⟩ := List.exists_mem_of_ne_nil zs hne
  obtain ⟨e, he, hey⟩ := h.present y hy
  have hee := h.counted e he
  have := h2 e (hp.mem_iff.2 he)
  rcases h3 with h3 | ⟨e', he', h3⟩
  · rw [h3] at this
    dsimp only at this
    omega
  · rw [h3] at h2 ⊢
    have h4 := h.counted e' (hp.mem_iff.1 he')
    refine ⟨e'.1, rfl, ?_, ?_⟩
    · apply List.count_pos_iff.1
      omega
    · intro w
      by_cases hw : w ∈ zs
      · obtain ⟨u, hu, huw⟩ := h.present w hw
        have h5 := h.counted u hu
        have h6 := h2 u (hp.mem_iff.2 hu)
        rw [huw] at h5
        dsimp only at h6
        omega
      · rw [List.count_eq_zero.2 hw]
        exact Nat.zero_le _

/-- The integer with the given bytes. -/
def intRead (p : Prim) (v : Bytes) : Int := intOfBits p (leNat v)

theorem most_common (hl : Solid l) (h : ShowsPoints b l ps) {m : Member} (hm : m ∈ l.attributes) {p : Prim}
    (hp : numberType m.definition.datatype = some p) (hint : p.isInt = true)
    {order : List (Int × Nat) → List (Int × Nat)} (ho : ∀ c, (order c).Perm c) (is : List Nat)
    (hi : ∀ i ∈ is, i < ps.length) (hne : is ≠ []) :
    ∃ z, mostCommon order b m.definition m.definition.datatype is = .ok z ∧
      MostCommon z ((valuesAt ps is m.definition).map (intRead p)) := by
  have hfold : forLoop is [] (countStep b m.definition m.definition.datatype) =
      .ok (((valuesAt ps is m.definition).map (intRead p)).foldl countKey []) := by
    rw [List.foldl_map]
    refine fold_values hl h hm (f := fun c v => countKey c (intRead p v)) ?_ is hi _
    intro acc i v _ hv
    unfold countStep
    rw [hp]
    show (valueAt _ _ _ _).bind _ = _
    rw [hv]
    show (match readNum p v with | .int z => _ | _ => _) = _
    rw [readNum_int hint]
    rfl
  have hc := count_all ((valuesAt ps is m.definition).map (intRead p)) [] [] ⟨by simp, by simp⟩
  rw [List.nil_append] at hc
  have hvne : (valuesAt ps is m.definition).map (intRead p) ≠ [] := by
    intro hc
    have := (values_length hl h hm is hi).1
    rw [List.map_eq_nil_iff.1 hc] at this
    exact hne (List.length_eq_zero_iff.1 this.symm)
  obtain ⟨z, h1, h2⟩ := most_common_of_counts hvne hc (ho _)
  refine ⟨z, ?_, h2⟩
  unfold mostCommon
  rw [hfold]
  show expectSome _ = _
  rw [h1]
  rfl

end

end Pasture.Voxel

namespace Pasture.Voxel

open Spec Flt BorrowedBuffer Props

section
variable {β : Type} [BorrowedBuffer β] {b : β} {l : PointLayout} {ps : List Point}

/-! ## Every attribute -/

theorem numbers_scalar {t : DataType} {p : Prim} (h : scalarType t = some p) (v : Bytes) :
    numbersOf t v = [readNum p v] := by
  unfold numbersOf
  rw [h]

theorem number_scalar {t : DataType} {p : Prim} (h : scalarType t = some p) :
    numberType t = some p ∧ Spec.numberType t = some p := by
  refine ⟨?_, by unfold Spec.numberType; rw [h]; rfl⟩
  cases t <;> exact h

theorem averaged_cases : ∀ d ∈ averaged,
    ((d.datatype = .u16 ∧ reductions.lookup d = some (.averageNum .u16)) ∨
      (d.datatype = .vec3f64 ∧ reductions.lookup d = some (.averageVec .f64)) ∨
      (d.datatype = .vec3u16 ∧ reductions.lookup d = some (.averageVec .u16)) ∨
      (d.datatype = .vec3f32 ∧ reductions.lookup d = some (.averageVec .f32))) ∧
      d ∉ elected ∧ d ∉ flags ∧ d ∉ pooled := by
  decide +kernel

theorem elected_cases : ∀ d ∈ elected,
    ((d.datatype = .u8 ∧ reductions.lookup d = some (.mostCommon .u8)) ∨
      (d.datatype = .i8 ∧ reductions.lookup d = some (.mostCommon .i8)) ∨
      (d.datatype = .i16 ∧ reductions.lookup d = some (.mostCommon .i16)) ∨
      (d.datatype = .u16 ∧ reductions.lookup d = some (.mostCommon .u16))) ∧
      d ∉ averaged ∧ d ∉ flags ∧ d ∉ pooled := by
  decide +kernel

theorem flags_cases : ∀ d ∈ flags,
    (d.datatype = .u8 ∧ reductions.lookup d = some .mostCommonFlag) ∧ d ∉ averaged ∧ d ∉ elected ∧ d ∉ pooled := by
  decide +kernel

theorem pooled_cases : ∀ d ∈ pooled,
    ((d.datatype = .u8 ∧ reductions.lookup d = some (.maxPool .u8)) ∨
      (d.datatype = .f64 ∧ reductions.lookup d = some (.maxPool .f64)) ∨
      (d.datatype = .u64 ∧ reductions.lookup d = some (.maxPool .u64))) ∧
      d ∉ averaged ∧ d ∉ elected ∧ d ∉ flags := by
  decide +kernel

/-- The value computed for an attribute. -/
def Value (order : List (Int × Nat) → List (Int × Nat)) (b : β) (ps : List Point) (is : List Nat) (d : AttrDef) : Prop :=
  ∃ r v, reductions.lookup d = some r ∧ reducedValue order b d is r = .ok v ∧ v.length = d.size ∧
    Reduced d (valuesAt ps is d) v

variable {order : List (Int × Nat) → List (Int × Nat)}

theorem value_mean_num (hl : Solid l) (h : ShowsPoints b l ps) {m : Member} (hm : m ∈ l.attributes) {p : Prim}
    (hp : scalarType m.definition.datatype = some p) (hr : reductions.lookup m.definition = some (.averageNum p))
    (hn : m.definition ∉ elected ∧ m.definition ∉ flags ∧ m.definition ∉ pooled) (is : List Nat)
    (hi : ∀ i ∈ is, i < ps.length) : Value order b ps is m.definition := by
  obtain ⟨n1, n2⟩ := number_scalar hp
  refine ⟨_, castBytes p (.double (computedMean ((valuesAt ps is m.definition).map fun v => asF64 (readNum p v)))), hr, ?_, ?_, ?_⟩
  · unfold reducedValue
    rw [average_num hl h hm n1 is hi]
    rfl
  · unfold castBytes
    rw [writeNum_length]
    unfold AttrDef.size
    generalize m.definition.datatype = t at hp
    cases t <;> first | (cases hp; rfl) | cases hp
  · refine ⟨?_, fun hc => absurd hc hn.1, fun hc => absurd hc hn.2.1, fun hc => absurd hc hn.2.2⟩
    intro _ q hq j x hx
    rw [n2] at hq
    cases hq
    simp only [numbers_scalar hp] at hx ⊢
    cases j with
    | zero =>
      have hx' := (Option.some.inj hx).symm
      rw [hx', read_cast_double p (fits_mean _)]
      congr 3
      rw [List.map_filterMap]
      induction valuesAt ps is m.definition with
      | nil => rfl
      | cons v vs ih => rw [List.map_cons, List.filterMap_cons, ← ih]; rfl
    | succ j => cases hx

theorem value_mean_vec (hl : Solid l) (h : ShowsPoints b l ps) {m : Member} (hm : m ∈ l.attributes) {p : Prim}
    (hs : scalarType m.definition.datatype = none) (hp : componentType m.definition.datatype = some p)
    (hv : vectorType m.definition.datatype = some p)
    (hsz : m.definition.size = 3 * p.size) (hr : reductions.lookup m.definition = some (.averageVec p))
    (hn : m.definition ∉ elected ∧ m.definition ∉ flags ∧ m.definition ∉ pooled) (is : List Nat)
    (hi : ∀ i ∈ is, i < ps.length) : Value order b ps is m.definition := by
  have hnum : ∀ v, numbersOf m.definition.datatype v = [readNum p (Converter.component p.size 0 v),
      readNum p (Converter.component p.size 1 v), readNum p (Converter.component p.size 2 v)] := by
    intro v
    unfold numbersOf
    rw [hs, hp]
    simp only [Converter.component, window, Nat.zero_mul, Nat.one_mul]
  let mean := fun j => computedMean ((valuesAt ps is m.definition).map (componentF64 p j))
  let c := fun j => castBytes p (.double (mean j))
  have hc : ∀ j, (c j).length = p.size := fun j => writeNum_length _ _
  refine ⟨_, c 0 ++ c 1 ++ c 2, hr, ?_, ?_, ?_⟩
  · unfold reducedValue
    rw [average_vec hl h hm hv is hi]
    rfl
  · rw [List.length_append, List.length_append, hc, hc, hc, hsz]
    omega
  · refine ⟨?_, fun hc => absurd hc hn.1, fun hc => absurd hc hn.2.1, fun hc => absurd hc hn.2.2⟩
    intro _ q hq j x hx
    have hq' : Spec.numberType m.definition.datatype = some p := by
      unfold Spec.numberType
      rw [hs, hp]
      rfl
    rw [hq'] at hq
    cases hq
    have e0 : Converter.component p.size 0 (c 0 ++ c 1 ++ c 2) = c 0 := by
      simp [Converter.component, ← hc 0]
    have e1 : Converter.component p.size 1 (c 0 ++ c 1 ++ c 2) = c 1 := by
      simp only [Converter.component, Nat.one_mul, List.append_assoc]
      rw [List.drop_left' (hc 0), List.take_left' (hc 1)]
    have e2 : Converter.component p.size 2 (c 0 ++ c 1 ++ c 2) = c 2 := by
      simp only [Converter.component]
      rw [List.drop_left' (by rw [List.length_append, hc, hc]; omega), List.take_of_length_le (Nat.le_of_eq (hc 2))]
    rw [hnum, e0, e1, e2] at hx
    have hrc : ∀ j, readNum p (c j) = asNum p (.double (mean j)) := fun j => read_cast_double p (fits_mean _)
    have key : ∀ j, j < 3 → ((valuesAt ps is m.definition).filterMap fun w => (numbersOf m.definition.datatype w)[j]?).map toDouble =
        (valuesAt ps is m.definition).map (componentF64 p j) := by
      intro j hj
      rw [List.map_filterMap]
      induction valuesAt ps is m.definition with
      | nil => rfl
      | cons v vs ih =>
        rw [List.map_cons, List.filterMap_cons, ← ih, hnum]
        match j, hj with
        | 0, _ => rfl
        | 1, _ => rfl
        | 2, _ => rfl
    match j, hx with
    | 0, hx => rw [← Option.some.inj hx, hrc 0, key 0 (by omega)]
    | 1, hx => rw [← Option.some.inj hx, hrc 1, key 1 (by omega)]
    | 2, hx => rw [← Option.some.inj hx, hrc 2, key 2 (by omega)]
    | j + 3, hx => cases hx

theorem integers_eq {t : DataType} {p : Prim} (hp : scalarType t = some p) (hint : p.isInt = true) (vs : List Bytes) :
    integersOf t vs = vs.map (intRead p) := by
  unfold integersOf
  induction vs with
  | nil => rfl
  | cons v vs ih =>
    rw [List.map_cons, List.filterMap_cons, ih, numbers_scalar hp, readNum_int hint]
    rfl

theorem scalar_size {d : AttrDef} {p : Prim} (hp : scalarType d.datatype = some p) : p.size = d.size := by
  unfold AttrDef.size
  generalize d.datatype = t at hp
  cases t <;> first | (cases hp; rfl) | cases hp

theorem value_mode (hl : Solid l) (h : ShowsPoints b l ps) {m : Member} (hm : m ∈ l.attributes) {p : Prim}
    (hp : scalarType m.definition.datatype = some p) (hint : p.isInt = true)
    (hr : reductions.lookup m.definition = some (.mostCommon p))
    (hn : m.definition ∉ averaged ∧ m.definition ∉ flags ∧ m.definition ∉ pooled)
    (ho : ∀ c, (order c).Perm c) (is : List Nat) (hi : ∀ i ∈ is, i < ps.length) (hne : is ≠ []) :
    Value order b ps is m.definition := by
  obtain ⟨z, h1, h2⟩ := most_common hl h hm (number_scalar hp).1 hint ho is hi hne
  obtain ⟨w, hw, rfl⟩ := List.mem_map.1 h2.1
  have hwl := (values_length hl h hm is hi).2 w hw
  have hz : p.lo ≤ intRead p w ∧ intRead p w ≤ p.hi := read_range hint (hwl.trans (scalar_size hp).symm) (readNum_int hint w)
  refine ⟨_, castBytes p (.int (intRead p w)), hr, ?_, ?_, ?_⟩
  · unfold reducedValue
    rw [h1]
    rfl
  · exact (writeNum_length _ _).trans (scalar_size hp)
  · refine ⟨fun hc => absurd hc hn.1, fun _ => ⟨intRead p w, ?_, ?_⟩, fun hc => absurd hc hn.2.1, fun hc => absurd hc hn.2.2⟩
    · rw [numbers_scalar hp, read_cast_int hint hz]
    · rw [integers_eq hp hint]
      exact h2

theorem value_flag (hl : Solid l) (h : ShowsPoints b l ps) {m : Member} (hm : m ∈ l.attributes)
    (ht : m.definition.datatype = .u8) (hr : reductions.lookup m.definition = some .mostCommonFlag)
    (hn : m.definition ∉ averaged ∧ m.definition ∉ elected ∧ m.definition ∉ pooled)
    (ho : ∀ c, (order c).Perm c) (is : List Nat) (hi : ∀ i ∈ is, i < ps.length) (hne : is ≠ []) :
    Value order b ps is m.definition := by
  have hp : scalarType m.definition.datatype = some .u8 := by rw [ht]; rfl
  obtain ⟨z, h1, h2⟩ := most_common hl h hm (number_scalar hp).1 rfl ho is hi hne
  refine ⟨_, [if z ≠ 0 then 1#8 else 0#8], hr, ?_, ?_, ?_⟩
  · unfold reducedValue
    rw [h1]
    rfl
  · exact scalar_size hp
  · refine ⟨fun hc => absurd hc hn.1, fun hc => absurd hc hn.2.1, fun _ => ⟨z, ?_, ?_⟩, fun hc => absurd hc hn.2.2⟩
    · rw [numbers_scalar hp]
      by_cases hz : z = 0
      · rw [if_neg (fun hc => hc hz), if_pos hz]; rfl
      · rw [if_pos hz, if_neg hz]; rfl
    · rw [integers_eq hp rfl]
      exact h2

theorem value_pool (hl : Solid l) (h : ShowsPoints b l ps) {m : Member} (hm : m ∈ l.attributes) {p : Prim}
    (hp : scalarType m.definition.datatype = some p)
    (hr : reductions.lookup m.definition = some (.maxPool p))
    (hn : m.definition ∉ averaged ∧ m.definition ∉ elected ∧ m.definition ∉ flags)
    (is : List Nat) (hi : ∀ i ∈ is, i < ps.length) :
    Value order b ps is m.definition := by
  obtain ⟨x, h1, hx, h2⟩ := max_pool hl h hm (number_scalar hp).1 is hi
  refine ⟨_, castBytes p (.double x), hr, ?_, ?_, ?_⟩
  · unfold reducedValue
    rw [h1]
    rfl
  · exact (writeNum_length _ _).trans (scalar_size hp)
  · refine ⟨fun hc => absurd hc hn.1, fun hc => absurd hc hn.2.1, fun hc => absurd hc hn.2.2, fun _ q hq => ⟨x, ?_, ?_⟩⟩
    · rw [(number_scalar hp).2] at hq
      cases hq
      rw [numbers_scalar hp, read_cast_double p hx]
    · have : ((valuesAt ps is m.definition).flatMap (numbersOf m.definition.datatype)).map toDouble =
          (valuesAt ps is m.definition).map fun v => asF64 (readNum p v) := by
        induction valuesAt ps is m.definition with
        | nil => rfl
        | cons v vs ih =>
          rw [List.flatMap_cons, List.map_append, ih, numbers_scalar hp]
          rfl
      rw [this]
      exact h2

theorem value_of (hl : Solid l) (h : ShowsPoints b l ps) {m : Member} (hm : m ∈ l.attributes)
    (hd : m.definition ∈ reducible) (ho : ∀ c, (order c).Perm c) (is : List Nat) (hi : ∀ i ∈ is, i < ps.length)
    (hne : is ≠ []) : Value order b ps is m.definition := by
  unfold reducible at hd
  rcases List.mem_append.1 hd with hd | hd
  · rcases List.mem_append.1 hd with hd | hd
    · rcases List.mem_append.1 hd with hd | hd
      · obtain ⟨hc, hn⟩ := averaged_cases _ hd
        rcases hc with ⟨ht, hr⟩ | ⟨ht, hr⟩ | ⟨ht, hr⟩ | ⟨ht, hr⟩
        · exact value_mean_num hl h hm (by rw [ht]; rfl) hr hn is hi
        all_goals
          exact value_mean_vec hl h hm (by rw [ht]; rfl) (by rw [ht]; rfl) (by rw [ht]; rfl)
            (by unfold AttrDef.size; rw [ht]; rfl) hr hn is hi
      · obtain ⟨hc, hn⟩ := elected_cases _ hd
        rcases hc with ⟨ht, hr⟩ | ⟨ht, hr⟩ | ⟨ht, hr⟩ | ⟨ht, hr⟩
        all_goals exact value_mode hl h hm (by rw [ht]; rfl) rfl hr hn ho is hi hne
    · obtain ⟨⟨ht, hr⟩, hn⟩ := flags_cases _ hd
      exact value_flag hl h hm ht hr hn ho is hi hne
  · obtain ⟨hc, hn⟩ := pooled_cases _ hd
    rcases hc with ⟨ht, hr⟩ | ⟨ht, hr⟩ | ⟨ht, hr⟩
    all_goals exact value_pool hl h hm (by rw [ht]; rfl) hr hn is hi

end

end Pasture.Voxel

namespace Pasture.Voxel

open Spec Flt BorrowedBuffer OwningBuffer Props

section
variable {β : Type} [BorrowedBuffer β] {b : β} {l : PointLayout} {ps : List Point}
  {order : List (Int × Nat) → List (Int × Nat)}

/-! ## The centroids -/

theorem stored_of_length {p : UntypedPoint} (hl : Solid p.layout) (hb : p.buffer.length = p.layout.size) {m : Member}
    (hm : m ∈ p.layout.attributes) : storedIn p m.definition = some (window p.buffer m.offset m.size) := by
  unfold storedIn
  rw [find_def_mem hl hm]
  dsimp only
  rw [if_pos (by rw [hb]; exact hl.inside m hm)]

theorem set_loop {l2 : PointLayout} (hl2 : Solid l2) {is : List Nat} : ∀ (ms : List Member),
    (∀ m ∈ ms, m ∈ l2.attributes) → (ms.map Member.definition).Nodup →
    (∀ m ∈ ms, Value order b ps is m.definition) → ∀ (c : UntypedPoint), c.layout = l2 → c.buffer.length = l2.size →
    ∃ q, forLoop ms c (setStep order b is) = .ok q ∧ q.layout = l2 ∧ q.buffer.length = l2.size ∧
      (∀ m ∈ ms, ∃ v, q.getRawAttribute m.definition = .ok v ∧ v.length = m.size ∧
        Reduced m.definition (valuesAt ps is m.definition) v) ∧
      ∀ d ∉ ms.map Member.definition, q.getRawAttribute d = c.getRawAttribute d := by
  intro ms
  induction ms with
  | nil =>
    intro _ _ _ c h1 h2
    exact ⟨c, rfl, h1, h2, by simp, fun _ _ => rfl⟩
  | cons m ms ih =>
    intro hmem hnd hval c h1 h2
    obtain ⟨r, v, g1, g2, g3, g4⟩ := hval m List.mem_cons_self
    have hm := hmem m List.mem_cons_self
    obtain ⟨q, s1, s2, s3, s4, s5⟩ := C30_set_raw c (h1 ▸ hl2) m.definition _ v
      (stored_of_length (h1 ▸ hl2) (by rw [h1]; exact h2) (h1 ▸ hm)) g3
    rw [List.map_cons, List.nodup_cons] at hnd
    obtain ⟨q', t1, t2, t3, t4, t5⟩ := ih (fun m' hm' => hmem m' (List.mem_cons_of_mem _ hm')) hnd.2
      (fun m' hm' => hval m' (List.mem_cons_of_mem _ hm')) q (s2.trans h1) (s3.trans h2)
    refine ⟨q', ?_, t2, t3, ?_, ?_⟩
    · rw [forLoop_cons]
      have : setStep order b is c m = .ok q := by
        unfold setStep
        rw [g1]
        show (reducedValue _ _ _ _ _).bind _ = _
        rw [g2]
        show unwrap _ = _
        rw [s1]
        rfl
      rw [this]
      exact t1
    · intro m' hm'
      rcases List.mem_cons.1 hm' with rfl | hm'
      · exact ⟨v, (t5 _ hnd.1).trans s4, g3, g4⟩
      · exact t4 m' hm'
    · intro d hd
      rw [List.map_cons, List.mem_cons, not_or] at hd
      rw [t5 d hd.2, s5 d hd.1]

theorem reducible_not_waveform : ∀ d ∈ waveformAttributes, d ∉ reducible := by decide +kernel

theorem set_all (hl : Solid l) (h : ShowsPoints b l ps) {l2 : PointLayout} (hl2 : Solid l2) (hc : Covered l l2)
    (ho : ∀ c, (order c).Perm c) {is : List Nat} (hi : ∀ i ∈ is, i < ps.length) (hne : is ≠ []) :
    ∃ q, setAllAttributes order l2 (UntypedPoint.new l2) is b = .ok q ∧ q.buffer.length = l2.size ∧
      IsCentroid l2 ps is (pointOf l2 q.buffer) := by
  have hval : ∀ m ∈ l2.attributes, Value order b ps is m.definition := by
    intro m hm
    obtain ⟨h1, h2⟩ := hc m hm
    obtain ⟨m', hm', e⟩ := List.mem_map.1 h2
    rw [← e] at h1 ⊢
    exact value_of hl h hm' h1 ho is hi hne
  obtain ⟨q, h1, h2, h3, h4, _⟩ := set_loop hl2 l2.attributes (fun _ hm => hm) (defs_nodup hl2) hval (UntypedPoint.new l2)
    rfl (by simp [UntypedPoint.new, zeros])
  refine ⟨q, ?_, h3, ?_, ?_⟩
  · unfold setAllAttributes
    rw [if_neg, h1]
    intro hw
    obtain ⟨d, hd, hd2⟩ := List.any_eq_true.1 hw
    obtain ⟨m, hm, rfl⟩ := List.mem_map.1 ((Las.hasAttribute_iff l2 d).1 hd2)
    exact reducible_not_waveform _ hd (hc m hm).1
  · unfold pointOf
    rw [List.map_map]
    rfl
  · intro m hm
    obtain ⟨v, g1, g2, g3⟩ := h4 m hm
    refine ⟨v, ?_, g2, g3⟩
    rw [C30_get_raw, stored_of_length (h2 ▸ hl2) (by rw [h2]; exact h3) (h2 ▸ hm)] at g1
    rw [pointOf_get, find_def_mem hl2 hm, ← Except.ok.inj g1]
    rfl

theorem centroid_loop (hl : Solid l) (h : ShowsPoints b l ps) {γ : Type} [OwningBuffer γ] [HoldsRecords γ]
    {l2 : PointLayout} (hl2 : Solid l2) (hc : Covered l l2) (ho : ∀ c, (order c).Perm c) :
    ∀ (vs : List Voxel), (∀ v ∈ vs, v.points ≠ [] ∧ ∀ i ∈ v.points, i < ps.length) →
    ∀ rs, AllLen l2.size rs → ∃ cs, AllLen l2.size cs ∧
      forLoop vs (HoldsRecords.ofRecords l2 rs : γ) (centroidStep order b) = .ok (HoldsRecords.ofRecords l2 (rs ++ cs)) ∧
      List.Forall₂ (fun (v : Voxel) c => IsCentroid l2 ps v.points (pointOf l2 c)) vs cs := by
  intro vs
  induction vs with
  | nil =>
    intro _ rs _
    exact ⟨[], by simp [AllLen], by simp, .nil⟩
  | cons v vs ih =>
    intro hv rs hrs
    obtain ⟨hne, hi⟩ := hv v List.mem_cons_self
    obtain ⟨q, h1, h2, h3⟩ := set_all hl h hl2 hc ho hi hne
    have hone : AllLen l2.size [q.buffer] := by simp [AllLen, h2]
    have hpush := push_each (β := γ) hl2 [q.buffer] rs hrs hone
    obtain ⟨cs, g1, g2, g3⟩ := ih (fun w hw => hv w (List.mem_cons_of_mem _ hw)) (rs ++ [q.buffer]) (hrs.append hone)
    refine ⟨q.buffer :: cs, AllLen.cons_iff.2 ⟨h2, g1⟩, ?_, .cons h3 g3⟩
    have hstep : centroidStep order b (HoldsRecords.ofRecords l2 rs : γ) v = .ok (HoldsRecords.ofRecords l2 (rs ++ [q.buffer])) := by
      unfold centroidStep
      dsimp only
      rw [(HoldsRecords.shows (β := γ) hl2 hrs).layout_eq]
      show (setAllAttributes _ _ _ _ _).bind _ = _
      rw [h1]
      show pushPoints _ _ = _
      rw [forLoop_cons] at hpush
      cases hp : pushPoints (HoldsRecords.ofRecords l2 rs : γ) q.buffer with
      | error f => rw [hp] at hpush; cases hpush
      | ok g => rw [hp] at hpush; exact hpush
    rw [forLoop_cons, hstep]
    show forLoop _ _ _ = _
    rw [g2]
    simp

end

end Pasture.Voxel
