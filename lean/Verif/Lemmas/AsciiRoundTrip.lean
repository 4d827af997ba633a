import Verif.Lemmas.AsciiWrite
import Verif.Lemmas.FloatOps
import Mathlib.Tactic.IntervalCases

/-! # Reading back what was written as ASCII -/

namespace Pasture.Ascii

open Spec Spec.Ascii Props BorrowedBuffer

/-! ## Numbers -/

/-- The characters of written numbers. -/
def Plain (s : List Char) : Prop := ∀ c ∈ s, c ∈ "0123456789-.NaNinf".toList

theorem digit_plain {c : Char} (h : '0' ≤ c ∧ c ≤ '9') : c ∈ "0123456789-.NaNinf".toList := by
  obtain ⟨h1, h2⟩ := (digit_range c).1 h
  rw [← Char.ofNat_toNat c]
  generalize c.toNat = n at h1 h2
  interval_cases n <;> decide

theorem digits_plain {s : List Char} (h : IsDigits s) : Plain s := fun c hc => digit_plain (h c hc)

theorem Plain.append {a b : List Char} (ha : Plain a) (hb : Plain b) : Plain (a ++ b) := by
  intro c hc
  rcases List.mem_append.1 hc with h | h
  · exact ha c h
  · exact hb c h

theorem Plain.cons {a : Char} {b : List Char} (ha : a ∈ "0123456789-.NaNinf".toList) (hb : Plain b) :
    Plain (a :: b) := by
  intro c hc
  rcases List.mem_cons.1 hc with rfl | h
  · exact ha
  · exact hb c h

theorem plain_nil : Plain [] := fun _ h => (List.not_mem_nil h).elim

theorem plainInteger_plain {s : List Char} {z : Int} (h : PlainInteger s z) : Plain s := by
  obtain ⟨ds, _, h2, _, ⟨rfl, _⟩ | ⟨rfl, _⟩⟩ := h
  · exact digits_plain h2
  · exact .cons (by decide) (digits_plain h2)

theorem plainFloat_plain {precision : Nat} {s : List Char} {x : F64} (h : PlainFloat precision s x) : Plain s := by
  have hsign : Plain (if x.neg then ['-'] else []) := by
    split
    · exact .cons (by decide) plain_nil
    · exact plain_nil
  rcases h with ⟨_, int, frac, h1, _, h2, _, _, _, rfl, _⟩ | ⟨_, rfl⟩ | ⟨_, rfl⟩
  · exact (hsign.append (digits_plain h1)).append (.cons (by decide) (digits_plain h2))
  · exact hsign.append (by unfold Plain; decide)
  · unfold Plain; decide

theorem parse_plainInteger {p : Prim} {s : List Char} {z : Int} (h : PlainInteger s z) (hz : p.lo ≤ z ∧ z ≤ p.hi) :
    parseInt p s = some z := by
  rw [parseInt_iff]
  obtain ⟨ds, h1, h2, _, ⟨rfl, h3⟩ | ⟨rfl, h3, h4⟩⟩ := h
  · exact ⟨s, h1, h2, hz.1, hz.2, .inl ⟨.inl rfl, h3⟩⟩
  · exact ⟨ds, h1, h2, hz.1, hz.2, .inr ⟨by omega, rfl, h3⟩⟩

theorem parse_plainFloat {precision : Nat} {s : List Char} {x : F64} (h : PlainFloat precision s x) :
    ∃ y, parseF64 s = some y ∧ y.mag < 2 ^ 63 ∧
      (x.isFinite = true → ∃ q : ℚ, |q - value x| ≤ 1 / (2 * 10 ^ precision) ∧ RoundsTo q y) ∧
      (x.isInf = true → y = x) ∧ (x.isNaN = true → y.isNaN = true) := by
  rcases h with ⟨hx, int, frac, h1, h2, h3, h4, h5, h6, rfl, h7⟩ | ⟨hx, rfl⟩ | ⟨hx, rfl⟩
  · have hcase := Flt.finite_cases hx
    cases int with
    | nil => exact absurd rfl h2
    | cons a int =>
      have ha := (isDigits_cons.1 h1).1
      have hr := (digit_range a).1 ha
      have hsplit : splitSign ((if x.neg then ['-'] else []) ++ (a :: int) ++ '.' :: frac) =
          (x.neg, (a :: int) ++ '.' :: frac) := by
        apply splitSign_unique
        cases x.neg
        · refine .inr (.inr ⟨rfl, rfl, ?_, ?_⟩)
          · intro h
            have : a = '-' := Option.some.inj h
            subst this
            rw [minus_nat] at hr; omega
          · intro h
            have : a = '+' := Option.some.inj h
            subst this
            rw [plus_nat] at hr; omega
        · exact .inl ⟨rfl, rfl⟩
      have hlead : leadingDigits ((a :: int) ++ '.' :: frac) = (a :: int, '.' :: frac) :=
        leadingDigits_append h1 (by
          intro c hc h
          have : c = '.' := (Option.some.inj hc).symm
          subst this
          have := (digit_range '.').1 h
          rw [point_nat] at this
          omega)
      have hfrac : fraction ('.' :: frac) = (frac, []) := by
        have := leadingDigits_append (ds := frac) (rest := []) h3 (by simp)
        rw [List.append_nil] at this
        exact this
      have hdec := parseDecimal_parts (neg := x.neg) hlead hfrac
      rw [if_neg (by simp)] at hdec
      have hexp : parseExponent [] = some 0 := rfl
      rw [hexp, Option.map_some, digitsValue_eq (isDigits_append.2 ⟨h1, h3⟩)] at hdec
      obtain ⟨hround, hneg⟩ := decimalToF64_rounds x.neg (digitsNumber (a :: int ++ frac)) (0 - frac.length)
      refine ⟨_, ?_, ?_, fun _ => ⟨_, ?_, hround⟩, ?_, ?_⟩
      · unfold parseF64
        rw [hsplit]
        dsimp only
        rw [if_neg, if_neg, hdec]
        · rintro (h | h)
          · exact not_word (.inl ha) (by decide) h
          · exact not_word (.inl ha) (by decide) h
        · exact not_word (.inl ha) (by decide)
      · have := hround.not_nan
        unfold Flt.isNaN at this
        have h8 := of_decide_eq_false this
        have : FloatFormat.f64.infMag < 2 ^ 63 := by decide
        omega
      · have e : (digitsNumber (a :: int ++ frac) : ℚ) * (10 : ℚ) ^ ((0 : Int) - frac.length) =
            digitsNumber (a :: int ++ frac) / 10 ^ frac.length := by
          rw [zero_sub, zpow_neg, zpow_natCast, div_eq_mul_inv]
        rw [e]
        have hval : value x = if x.neg then -abs (value x) else abs (value x) := by
          rw [value_abs usable_f64, value_eq usable_f64]
          unfold Flt.sunits
          split <;> push_cast <;> ring
        cases hn : x.neg with
        | false =>
          rw [hn] at hval
          simp only [Bool.false_eq_true, if_false] at hval ⊢
          rw [hval]; exact h7
        | true =>
          rw [hn] at hval
          simp only [if_true] at hval ⊢
          rw [hval, ← neg_sub', abs_neg]
          exact h7
      · intro h; rw [hcase.2] at h; cases h
      · intro h; rw [hcase.1] at h; cases h
  · have hm : x.mag = FloatFormat.f64.infMag := of_decide_eq_true hx
    have hsplit : splitSign ((if x.neg then ['-'] else []) ++ "inf".toList) = (x.neg, "inf".toList) := by
      cases x.neg <;> rfl
    refine ⟨Flt.inf .f64 x.neg, ?_, ?_, ?_, ?_, ?_⟩
    · unfold parseF64
      rw [hsplit]
      dsimp only
      rw [if_neg (by decide), if_pos (by decide)]
    · show FloatFormat.f64.infMag < 2 ^ 63
      decide
    · intro h
      have := (Flt.finite_cases h).2
      rw [hx] at this; cases this
    · intro _
      cases x
      simp only at hm
      rw [hm]
      rfl
    · intro h
      have := of_decide_eq_true h
      omega
  · refine ⟨⟨false, FloatFormat.f64.nanMag⟩, rfl, by decide, ?_, ?_, fun _ => nan_isNaN false⟩
    · intro h
      have := (Flt.finite_cases h).1
      rw [hx] at this; cases this
    · intro h
      have h1 := of_decide_eq_true h
      have h2 := of_decide_eq_true hx
      omega

theorem IsColumn.types {c : Column} (h : IsColumn c) : c.type = .f64 ∨ c.type.isInt = true := by
  obtain ⟨t, ht⟩ := h
  cases t <;> cases ht <;> first | exact .inl rfl | exact .inr rfl

theorem plain_flag (z : Int) : PlainInteger (if z = 0 then ['0'] else ['1']) (if z = 0 then 0 else 1) := by
  by_cases h : z = 0
  · rw [if_pos h, if_pos h]
    exact ⟨['0'], by simp, by unfold IsDigits; decide, by simp, .inl ⟨rfl, by decide⟩⟩
  · rw [if_neg h, if_neg h]
    exact ⟨['1'], by simp, by unfold IsDigits; decide, by simp, .inl ⟨rfl, by decide⟩⟩

theorem numText_writes {c : Column} (hc : IsColumn c) {precision : Nat} (hp : 1 ≤ precision) (b : Bytes) :
    c.Writes precision b (numText precision c b) := by
  unfold Column.Writes numText
  rcases hc.types with h | h
  · rw [h]
    exact fixedText_plain precision hp _
  · rw [readNum_int h]
    dsimp only
    by_cases hf : c.flag = true
    · rw [if_pos hf, if_pos hf]
      exact plain_flag _
    · rw [if_neg hf, if_neg hf]
      exact intText_plain _

theorem writes_plain {c : Column} {precision : Nat} {b : Bytes} {s : List Char} (h : c.Writes precision b s) :
    Plain s := by
  unfold Column.Writes at h
  split at h
  · exact plainFloat_plain h
  · exact h.elim
  · split at h
    · exact plainInteger_plain h
    · exact plainInteger_plain h

/-- What is read for the text of a column. -/
theorem writes_value {c : Column} (hc : IsColumn c) {precision : Nat} {b : Bytes} (hb : b.length = c.type.size)
    {s : List Char} (h : c.Writes precision b s) :
    ∃ n, valueOf c s = .ok n ∧
      match readNum c.type b with
      | .int z => if c.flag then readNum c.type (writeNum c.type n) = .int (if z = 0 then 0 else 1)
          else writeNum c.type n = b
      | .double x => ∃ y, readNum c.type (writeNum c.type n) = .double y ∧
          (x.isFinite = true → ∃ q : ℚ, |q - value x| ≤ 1 / (2 * 10 ^ precision) ∧ RoundsTo q y) ∧
          (x.isInf = true → y = x) ∧ (x.isNaN = true → y.isNaN = true)
      | .single _ => True := by
  unfold Column.Writes at h
  unfold valueOf
  rcases hc.types with ht | ht
  · have hfl := hc.float ht
    rw [ht] at hb h ⊢
    obtain ⟨x, hx⟩ := holdsF64_exists hb
    rw [holdsF64_read hx] at h ⊢
    dsimp only at h ⊢
    obtain ⟨y, h1, h2, h3⟩ := parse_plainFloat h
    refine ⟨.double y, ?_, y, holdsF64_read (holdsF64_write h2), h3⟩
    rw [parseString_f64, h1, hfl]
    rfl
  · have hne : c.type ≠ .f64 := by intro e; rw [e] at ht; cases ht
    obtain ⟨z, hz⟩ := holds_exists ht hb
    rw [holds_read ht hz] at h ⊢
    dsimp only at h ⊢
    rw [parseString_int hne]
    by_cases hf : c.flag = true
    · simp only [if_pos hf] at h ⊢
      have hrange : c.type.lo ≤ (if z = 0 then 0 else 1 : Int) ∧ (if z = 0 then 0 else 1 : Int) ≤ c.type.hi := by
        have : c.type.lo ≤ 0 ∧ 1 ≤ c.type.hi := by
          obtain ⟨t, ht'⟩ := hc
          cases t <;> cases ht' <;> first | decide | cases hf
        split <;> omega
      rw [parse_plainInteger h hrange]
      refine ⟨.int (if z = 0 then 0 else 1), ?_, holds_read ht (holds_write hrange)⟩
      by_cases h0 : z = 0
      · rw [if_pos h0, hf]; rfl
      · rw [if_neg h0, hf]; rfl
    · simp only [if_neg hf] at h ⊢
      rw [parse_plainInteger h hz.range]
      refine ⟨.int z, ?_, holds_bytes (holds_write hz.range) hz⟩
      simp [hf, orErr, Except.map, bind, Except.bind, pure, Except.pure, bailIf]

/-! ## Lines -/

theorem mem_intercalate {d : List Char} {x : Char} : ∀ {cols : List (List Char)}, x ∈ d.intercalate cols →
    x ∈ d ∨ ∃ c ∈ cols, x ∈ c := by
  intro cols
  induction cols with
  | nil => intro h; simp [List.intercalate] at h
  | cons a cols ih =>
    intro h
    cases cols with
    | nil => rw [intercalate_one] at h; exact .inr ⟨a, by simp, h⟩
    | cons b cols =>
      rw [intercalate_cons₂, List.append_assoc, List.mem_append, List.mem_append] at h
      rcases h with h | h | h
      · exact .inr ⟨a, by simp, h⟩
      · exact .inl h
      · rcases ih h with h | ⟨c, hc, h⟩
        · exact .inl h
        · exact .inr ⟨c, List.mem_cons_of_mem _ hc, h⟩

/-- A piece without the first character of the delimiter contains no beginning of the delimiter. -/
theorem not_inside {a : Char} {d' s t : List Char} (hs : a ∉ s) (ht : t.length < (a :: d').length) :
    ¬ (a :: d') <:+: s ++ t := by
  rintro ⟨u, v, h⟩
  have hlen := congrArg List.length h
  simp only [List.length_append, List.length_cons] at hlen ht
  by_cases hu : u.length < s.length
  · have h1 := congrArg (·[u.length]?) h
    simp only [List.append_assoc] at h1
    rw [List.getElem?_append_right (Nat.le_refl _), List.getElem?_append_left hu] at h1
    simp at h1
    exact hs (List.mem_of_getElem? h1.symm)
  · omega

theorem clear_plain {d : List Char} (hd : ClearDelimiter d) : ∃ a d', d = a :: d' ∧ ∀ s, Plain s → a ∉ s := by
  obtain ⟨a, d', rfl, h, _⟩ := hd
  exact ⟨a, d', rfl, fun s hs ha => h (hs a ha)⟩

theorem pieces_intercalate {d : List Char} (hd : ClearDelimiter d) : ∀ {cols : List (List Char)}, cols ≠ [] →
    (∀ c ∈ cols, Plain c) → Pieces d (d.intercalate cols) cols := by
  obtain ⟨a, d', rfl, ha⟩ := clear_plain hd
  intro cols
  induction cols with
  | nil => intro h; exact absurd rfl h
  | cons c cols ih =>
    intro _ hp
    have hc := ha c (hp c (by simp))
    cases cols with
    | nil =>
      rw [intercalate_one]
      refine .last c ?_
      have := not_inside (d' := d') (t := []) hc (by simp)
      rwa [List.append_nil] at this
    | cons b cols =>
      rw [intercalate_cons₂]
      refine .more c _ _ (not_inside hc ?_) (ih (by simp) fun x hx => hp x (List.mem_cons_of_mem _ hx))
      simp

theorem split_intercalate {d : List Char} (hd : ClearDelimiter d) {cols : List (List Char)}
    (hp : ∀ c ∈ cols, Plain c) :
    split (d.intercalate cols) d = if cols = [] then [[]] else cols := by
  have hne : d ≠ [] := by
    obtain ⟨a, d', rfl, _⟩ := hd
    simp
  by_cases h : cols = []
  · subst h
    rw [if_pos rfl]
    unfold split
    rw [if_neg hne]
    simp [List.intercalate, splitLoop]
  · rw [if_neg h, split_iff]
    unfold LineColumns
    rw [if_neg hne]
    exact pieces_intercalate hd h hp

theorem lines_flatten : ∀ {ls : List (List Char)}, (∀ s ∈ ls, '\n' ∉ s ∧ s.getLast? ≠ some '\r') →
    Lines (ls.map (· ++ ['\n'])).flatten ls := by
  intro ls
  induction ls with
  | nil => intro _; exact .none
  | cons s ls ih =>
    intro h
    have hs := h s (by simp)
    have := Lines.lf s _ ls hs.1 hs.2 (ih fun x hx => h x (List.mem_cons_of_mem _ hx))
    simpa using this

/-! ## Points -/

/-- The line of a point has the columns of its literals. -/
theorem pointLine_ok {w : RawAsciiWriter} {p : Point} {line : List Char} (h : pointLine w p = .ok line) :
    ∃ cols, w.parseLayout.mapM (pointText w.precision p) = .ok cols ∧ line = w.delimiter.intercalate cols := by
  unfold pointLine at h
  cases hm : w.parseLayout.mapM (pointText w.precision p) with
  | error e => rw [hm] at h; cases h
  | ok cols => rw [hm] at h; exact ⟨cols, rfl, (Except.ok.inj h).symm⟩

theorem mapM_ok_getElem {α γ : Type} {f : α → Out γ} : ∀ {xs : List α} {ys : List γ}, xs.mapM f = .ok ys →
    ys.length = xs.length ∧ ∀ (i : Nat) x, xs[i]? = some x → ∃ y, ys[i]? = some y ∧ f x = .ok y := by
  intro xs
  induction xs with
  | nil =>
    intro ys h
    cases h
    exact ⟨rfl, fun i x h => by simp at h⟩
  | cons a xs ih =>
    intro ys h
    rw [List.mapM_cons] at h
    cases ha : f a with
    | error e => rw [ha] at h; cases h
    | ok b =>
      cases hm : xs.mapM f with
      | error e => rw [ha, hm] at h; cases h
      | ok bs =>
        rw [ha, hm] at h
        cases h
        obtain ⟨h1, h2⟩ := ih hm
        refine ⟨by simp [h1], fun i x hx => ?_⟩
        cases i with
        | zero => simp at hx; subst hx; exact ⟨b, by simp, ha⟩
        | succ i => simpa using h2 i x (by simpa using hx)

theorem mapM_ok_of {α γ : Type} {f : α → Out γ} : ∀ {xs : List α}, (∀ x ∈ xs, ∃ y, f x = .ok y) →
    ∃ ys, xs.mapM f = .ok ys := by
  intro xs
  induction xs with
  | nil => intro _; exact ⟨[], rfl⟩
  | cons a xs ih =>
    intro h
    obtain ⟨b, hb⟩ := h a (by simp)
    obtain ⟨bs, hbs⟩ := ih fun x hx => h x (List.mem_cons_of_mem _ hx)
    exact ⟨b :: bs, by rw [List.mapM_cons, hb, hbs]; rfl⟩

/-- The literals that are written as what they mean. -/
def Faithful (ts : List PointDataType) : Prop := ∀ t ∈ ts, writtenAs t = t

/-- What is written for a literal is the attribute of a literal of the list. -/
def Closed (ts : List PointDataType) : Prop := ∀ t ∈ ts, writtenAs t ∈ ts

theorem pointText_column {precision : Nat} {p : Point} {t : PointDataType} (ht : writtenAs t = t) {s : List Char}
    (h : pointText precision p t = .ok s) :
    match columnOf t with
    | some c => ∃ v, p.get c.attr = some v ∧ s = numText precision c (c.part v)
    | none => s = [] := by
  unfold pointText at h
  rw [ht] at h
  cases hc : columnOf t with
  | none => rw [hc] at h; exact (Except.ok.inj h).symm
  | some c =>
    rw [hc] at h
    dsimp only at h ⊢
    cases hg : p.get c.attr with
    | none => rw [hg] at h; cases h
    | some v => rw [hg] at h; exact ⟨v, rfl, (Except.ok.inj h).symm⟩

theorem pointText_plain {precision : Nat} (hp : 1 ≤ precision) {p : Point} {t : PointDataType} {s : List Char}
    (h : pointText precision p t = .ok s) : Plain s := by
  unfold pointText at h
  cases hc : columnOf (writtenAs t) with
  | none => rw [hc] at h; rw [← Except.ok.inj h]; exact plain_nil
  | some c =>
    rw [hc] at h
    dsimp only at h
    cases hg : p.get c.attr with
    | none => rw [hg] at h; cases h
    | some v =>
      rw [hg] at h
      rw [← Except.ok.inj h]
      exact writes_plain (numText_writes ⟨_, hc⟩ hp _)

theorem columns_plain {w : RawAsciiWriter} (hp : 1 ≤ w.precision) {p : Point} {cols : List (List Char)}
    (h : w.parseLayout.mapM (pointText w.precision p) = .ok cols) : ∀ s ∈ cols, Plain s := by
  obtain ⟨h1, h2⟩ := mapM_ok_getElem h
  intro s hs
  obtain ⟨i, hi, rfl⟩ := List.mem_iff_getElem.1 hs
  obtain ⟨y, h3, h4⟩ := h2 i (w.parseLayout[i]'(by omega)) (List.getElem?_eq_getElem (by omega))
  rw [List.getElem?_eq_getElem hi] at h3
  rw [Option.some.inj h3]
  exact pointText_plain hp h4

/-- The written columns are those of the specification. -/
theorem columnsOfPoint {format : List Char} {w : RawAsciiWriter}
    (hm : format.map meaning = w.parseLayout.map fun t => some (columnOf t)) (hf : Faithful w.parseLayout)
    (hp : 1 ≤ w.precision) {p : Point} {cols : List (List Char)}
    (h : w.parseLayout.mapM (pointText w.precision p) = .ok cols) : ColumnsOfPoint format w.precision p cols := by
  obtain ⟨h1, h2⟩ := mapM_ok_getElem h
  refine ⟨by rw [h1]; simpa using (congrArg List.length hm).symm, fun i s hs => ?_⟩
  have hi : i < w.parseLayout.length := by
    have := (List.getElem?_eq_some_iff.1 hs).1
    omega
  have ht := List.getElem?_eq_getElem hi
  obtain ⟨y, h3, h4⟩ := h2 i _ ht
  rw [hs] at h3
  cases h3
  have := pointText_column (hf _ (List.getElem_mem hi)) h4
  rw [describes_eq hm, ht]
  show match columnOf w.parseLayout[i] with
    | some c => _
    | none => _
  cases hc : columnOf w.parseLayout[i] with
  | none => rw [hc] at this; exact this
  | some c =>
    rw [hc] at this
    obtain ⟨v, h5, h6⟩ := this
    exact ⟨v, h5, by rw [h6]; exact numText_writes ⟨_, hc⟩ hp _⟩

theorem line_ends {w : RawAsciiWriter} (hd : ClearDelimiter w.delimiter) {cols : List (List Char)}
    (hp : ∀ s ∈ cols, Plain s) :
    '\n' ∉ w.delimiter.intercalate cols ∧ (w.delimiter.intercalate cols).getLast? ≠ some '\r' := by
  obtain ⟨a, d', he, _, h1, h2⟩ := hd
  constructor
  · intro h
    rcases mem_intercalate h with h | ⟨c, hc, h⟩
    · exact h1 h
    · have := hp c hc _ h
      revert this
      decide
  · intro h
    have := List.mem_of_getLast? h
    rcases mem_intercalate this with h | ⟨c, hc, h⟩
    · exact h2 h
    · have := hp c hc _ h
      revert this
      decide

theorem last_index (P : Nat → Prop) (n : Nat) (hP : ∀ j, P j → j < n) : ∀ k i, n - i ≤ k → P i →
    ∃ j, P j ∧ i ≤ j ∧ ∀ m, j < m → ¬ P m := by
  intro k
  induction k with
  | zero => intro i h1 h2; have := hP i h2; omega
  | succ k ih =>
    intro i h1 h2
    by_cases h : ∃ m, i < m ∧ P m
    · obtain ⟨m, hm, hpm⟩ := h
      obtain ⟨j, h3, h4, h5⟩ := ih m (by omega) hpm
      exact ⟨j, h3, by omega, h5⟩
    · exact ⟨i, h2, Nat.le_refl _, fun m hm hpm => h ⟨m, hm, hpm⟩⟩

theorem IsColumn.eq_of {c c' : Column} (h : IsColumn c) (h' : IsColumn c')
    (e : c'.attr = c.attr ∧ c'.component = c.component) : c' = c := by
  obtain ⟨t, ht⟩ := h
  obtain ⟨t', ht'⟩ := h'
  obtain ⟨e1, e2⟩ := e
  cases t <;> cases ht <;> cases t' <;> cases ht' <;>
    first | rfl | (exact absurd e1 (by decide)) | (exact absurd e2 (by decide))

theorem part_length {c : Column} (hc : IsColumn c) {v : Bytes} (hv : v.length = c.attr.size) :
    (c.part v).length = c.type.size := by
  have := hc.inside
  exact length_window (by omega)

/-- What the columns of a point are read as. -/
theorem recovered {w : RawAsciiWriter} (hf : Faithful w.parseLayout) (hp : 1 ≤ w.precision) {format : List Char}
    (hm : format.map meaning = w.parseLayout.map fun t => some (columnOf t)) {p : Point}
    (hs : ∀ d v, p.get d = some v → v.length = d.size) {cols : List (List Char)}
    (h : w.parseLayout.mapM (pointText w.precision p) = .ok cols) {cols' : List (List Char)}
    (hc : ∀ i : Nat, i < cols.length → cols'[i]? = cols[i]?) (hlen : cols.length ≤ cols'.length) :
    Good (w.parseLayout.map columnOf) cols' ∧
      ∀ {l : PointLayout} {r : Bytes}, Solid l → LineRecord l w.parseLayout cols' r →
        Recovered format w.precision p (pointOf l r) := by
  obtain ⟨h1, h2⟩ := mapM_ok_getElem h
  have htext : ∀ (i : Nat) c, (w.parseLayout.map columnOf)[i]? = some (some c) → ∃ v s, p.get c.attr = some v ∧
      cols'[i]? = some s ∧ IsColumn c ∧ c.Writes w.precision (c.part v) s := by
    intro i c hi
    rw [List.getElem?_map] at hi
    cases ht : w.parseLayout[i]? with
    | none => rw [ht] at hi; cases hi
    | some t =>
      rw [ht] at hi
      have hct : columnOf t = some c := Option.some.inj hi
      obtain ⟨s, h3, h4⟩ := h2 i t ht
      have := pointText_column (hf _ (List.mem_of_getElem? ht)) h4
      rw [hct] at this
      obtain ⟨v, h5, h6⟩ := this
      refine ⟨v, s, h5, ?_, ⟨t, hct⟩, by rw [h6]; exact numText_writes ⟨t, hct⟩ hp _⟩
      rw [hc i (List.getElem?_eq_some_iff.1 h3).1, h3]
  constructor
  · refine ⟨by simp; omega, fun i c s hi hsi => ?_⟩
    obtain ⟨v, s', h3, h4, h5, h6⟩ := htext i c hi
    rw [hsi] at h4
    cases h4
    obtain ⟨n, hn, _⟩ := writes_value h5 (part_length h5 (hs _ _ h3)) h6
    exact ⟨n, hn⟩
  · intro l r hl hr i c v x hi hv hx
    have hdesc : ∀ j, describes format j = ((w.parseLayout.map columnOf)[j]?).bind id := by
      intro j
      rw [describes_eq hm, List.getElem?_map]
      cases w.parseLayout[j]? <;> rfl
    have hget : ∀ (j : Nat) c, describes format j = some c → (w.parseLayout.map columnOf)[j]? = some (some c) := by
      intro j c hj
      rw [hdesc] at hj
      cases ht : (w.parseLayout.map columnOf)[j]? with
      | none => rw [ht] at hj; cases hj
      | some o => rw [ht] at hj; exact congrArg some hj
    obtain ⟨_, _, _, _, hcol, _⟩ := htext i c (hget i c hi)
    obtain ⟨j, hj, _, hjlast⟩ := last_index
      (fun j => ∃ c', describes format j = some c' ∧ c'.attr = c.attr ∧ c'.component = c.component)
      w.parseLayout.length (by
        rintro j ⟨c', hj, _⟩
        have := (List.getElem?_eq_some_iff.1 (hget j c' hj)).1
        simpa using this)
      (w.parseLayout.length - i) i (Nat.le_refl _) ⟨c, hi, rfl, rfl⟩
    obtain ⟨c', hj, he⟩ := hj
    obtain ⟨v', s, h3, h4, h5, h6⟩ := htext j c' (hget j c' hj)
    have hcc := hcol.eq_of h5 he
    subst hcc
    rw [hv] at h3
    cases h3
    obtain ⟨n, hn, hval⟩ := writes_value h5 (part_length h5 (hs _ _ hv)) h6
    have hpart : c'.part x = writeNum c'.type n := by
      rw [pointOf_get] at hx
      cases hfind : l.attributes.find? fun m => m.definition = c'.attr with
      | none => rw [hfind] at hx; cases hx
      | some m =>
        rw [hfind] at hx
        obtain ⟨hmm, hmd⟩ := find_def_some hfind
        obtain ⟨n', h7, h8⟩ := hr.2.1 j c' s m
          (by rw [List.getElem?_zip_eq_some]; exact ⟨hget j c' hj, h4⟩) hmm hmd (by
            intro k c'' s'' hk hk' hsame
            rw [List.getElem?_zip_eq_some] at hk'
            refine hjlast k hk ⟨c'', ?_, hsame⟩
            rw [hdesc, hk'.1]; rfl)
        rw [hn] at h7
        cases h7
        rw [← h8, ← Option.some.inj hx]
        unfold Column.part
        have := h5.inside
        have h9 : m.size = c'.attr.size := by rw [← hmd]; rfl
        exact window_window (by omega)
    rw [hpart]
    cases hrn : readNum c'.type (c'.part v) with
    | int z => rw [hrn] at hval; exact hval
    | single y => trivial
    | double y => rw [hrn] at hval; exact hval

end Pasture.Ascii
