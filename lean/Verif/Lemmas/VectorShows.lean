import Verif.Lemmas.Points

/-! # Reads of an interleaved buffer; its operations on records -/

namespace Pasture

open Spec

theorem value?_pointOf (l : PointLayout) (rs : List Bytes) (d : AttrDef) (i : Nat) :
    value? (rs.map (pointOf l)) d i =
      (rs[i]?).bind fun r => (l.attributes.find? (fun m => m.definition = d)).map
        fun m => window r m.offset m.size := by
  unfold value?
  rw [List.getElem?_map]
  cases rs[i]? with
  | none => rfl
  | some r => simp [pointOf_get]

theorem mapM_some {α β : Type} {f : α → Option β} {g : α → β} {xs : List α}
    (h : ∀ x ∈ xs, f x = some (g x)) : xs.mapM f = some (xs.map g) := by
  induction xs with
  | nil => rfl
  | cons x xs ih =>
    rw [List.mapM_cons, h x (by simp), ih fun y hy => h y (by simp [hy])]
    rfl

theorem mapM_none {α β : Type} {f : α → Option β} {xs : List α} {x : α} (hx : x ∈ xs)
    (h : f x = none) : xs.mapM f = none := by
  induction xs with
  | nil => simp at hx
  | cons y ys ih =>
    rw [List.mapM_cons]
    rcases List.mem_cons.1 hx with e | e
    · rw [← e, h]; rfl
    · rw [ih e]; cases f y <;> rfl

/-- Range reads follow from single reads, for any representation. -/
theorem getAttributeRange_of_unchecked {β : Type} [BorrowedBuffer β] {b : β} {l : PointLayout}
    {ps : List Point} (hl : BorrowedBuffer.layout b = l)
    (hp : ∀ p ∈ ps, ∀ m ∈ l.attributes, ∃ v, p.get m.definition = some v ∧ v.length = m.size)
    (habs : ∀ p ∈ ps, ∀ d, d ∉ l.attributes.map Member.definition → p.get d = none)
    (hu : ∀ m i data, m ∈ l.attributes → data.length = m.size →
      BorrowedBuffer.getAttributeUnchecked b m i data = answer (value? ps m.definition i))
    (hu' : ∀ m i data, m ∈ l.attributes → ps.length ≤ i →
      BorrowedBuffer.getAttributeUnchecked b m i data = .error .panic)
    (d : AttrDef) (s e : Nat) (data : Bytes) (hse : s < e) (hd : data.length = (e - s) * d.size) :
    getAttributeRange b d ⟨s, e⟩ data = answer (values? ps d s e) := by
  have hget : ∀ i (hi : i < ps.length) m, m ∈ l.attributes →
      ∃ v, value? ps m.definition i = some v ∧ v.length = m.size ∧ ps[i].get m.definition = some v := by
    intro i hi m hm
    obtain ⟨v, h1, h2⟩ := hp _ (List.getElem_mem hi) m hm
    exact ⟨v, by simp [value?, List.getElem?_eq_getElem hi, h1], h2, h1⟩
  by_cases hmem : d ∈ l.attributes.map Member.definition
  · obtain ⟨m, hm⟩ := find_def_isSome hmem
    obtain ⟨hm1, hm2⟩ := find_def_some hm
    have hms : m.size = d.size := by rw [← hm2]; rfl
    have hf : (BorrowedBuffer.layout b).getAttribute d = some m := by
      rw [hl, getAttribute_eq]; exact hm
    by_cases he : e ≤ ps.length
    · have hv : ∀ i, ∃ v : Bytes, i < ps.length → value? ps d i = some v ∧ v.length = m.size ∧
          ∀ h : i < ps.length, ps[i].get d = some v := by
        intro i
        by_cases hi : i < ps.length
        · obtain ⟨v, h1, h2, h3⟩ := hget i hi m hm1
          rw [hm2] at h1 h3
          exact ⟨v, fun _ => ⟨h1, h2, fun _ => h3⟩⟩
        · exact ⟨[], fun h => absurd h hi⟩
      obtain ⟨v, hv⟩ := Classical.axiomOfChoice hv
      rw [getAttributeRange_ok (v := v) hf (by
        intro i _ hi
        have hi : i < e := hi
        obtain ⟨h1, h2, _⟩ := hv i (by omega)
        refine ⟨h2, fun old ho => ?_⟩
        rw [hu m i old hm1 ho, hm2, h1]; rfl) (by rw [hms]; exact hd)]
      unfold values? range?
      rw [if_pos he]
      simp only [bind, Option.bind, pure]
      have key : ((ps.drop s).take (e - s)).mapM (fun p => p.get d) =
          some ((List.range' s (e - s)).map v) := by
        have e1 : (ps.drop s).take (e - s) =
            (List.range' s (e - s)).map fun i => if h : i < ps.length then ps[i] else [] := by
          apply List.ext_getElem
          · simp; omega
          · intro i h1 h2
            simp at h1 h2
            simp [show s + i < ps.length by omega]
        rw [e1, List.mapM_map]
        apply mapM_some
        intro i hi
        rw [List.mem_range'_1] at hi
        have hi' : i < ps.length := by omega
        simp only [Function.comp_apply, hi', dite_true]
        exact (hv i hi').2.2 hi'
      rw [key]
      rfl
    · have : range? ps s e = none := by unfold range?; rw [if_neg he]
      unfold values?
      rw [this]
      exact getAttributeRange_panic (n := ps.length) hf (fun i hi old ho => by
          obtain ⟨v, h1, h2, _⟩ := hget i hi m hm1
          exact ⟨v, by rw [hu m i old hm1 ho, h1]; rfl, h2⟩)
        (fun i hi old => hu' m i old hm1 hi) hse (by simpa using he) (by rw [hms]; exact hd)
  · have hf : (BorrowedBuffer.layout b).getAttribute d = none := by
      rw [hl, getAttribute_eq]; exact find_def_none hmem
    rw [getAttributeRange_absent _ _ hf]
    unfold values? range?
    split
    · simp only [bind, Option.bind]
      have hlt : s < ps.length := by omega
      rw [mapM_none (f := fun p : Point => p.get d) (x := ps[s]) (xs := (ps.drop s).take (e - s)) (by
        rw [List.mem_iff_getElem]
        exact ⟨0, by simp; omega, by simp⟩) (habs _ (List.getElem_mem hlt) d hmem)]
      rfl
    · rfl

section
variable {l : PointLayout} {rs : List Bytes}

theorem interleaved_unchecked (hl : Solid l) (h : AllLen l.size rs) {m : Member} {i : Nat} {data : Bytes}
    (hm : m ∈ l.attributes) (hd : data.length = m.size) :
    (Interleaved.ofRecords l rs).getAttributeUnchecked m i data =
      answer (value? (rs.map (pointOf l)) m.definition i) := by
  rw [value?_pointOf, find_def_mem hl hm]
  cases hr : rs[i]? with
  | none =>
    exact Interleaved.getAttributeUnchecked_panic h (hl.positive m hm) (by simpa using hr) data
  | some r => exact Interleaved.getAttributeUnchecked_ok h (hl.inside m hm) hr data hd

theorem range?_flatten {a b : Nat} (h : AllLen l.size rs) (hsz : 0 < l.size)
    (hab : a < b ∨ a = b ∧ b ≤ rs.length) :
    (Interleaved.ofRecords l rs).getPointRangeRef ⟨a, b⟩ = answer ((range? rs a b).map List.flatten) := by
  unfold range?
  split
  · next hb => exact Interleaved.getPointRangeRef_ok h (by show a ≤ b; omega) hb
  · next hb => exact Interleaved.getPointRangeRef_panic h hsz (by show rs.length < b; omega)

theorem window_map_recordsOf {n : Nat} (h : AllLen l.size rs) (hn : rs.length = n) :
    recordsOf l.size n rs.flatten = rs := recordsOf_flatten h hn

theorem interleaved_shows_points (hl : Solid l) (h : AllLen l.size rs) :
    ShowsPoints (Interleaved.ofRecords l rs) l (rs.map (pointOf l)) where
  len_eq := by simp [BorrowedBuffer.len]
  layout_eq := rfl
  getPoint_ok := by
    intro i p data hp hd
    rw [List.getElem?_map] at hp
    cases hr : rs[i]? with
    | none => rw [hr] at hp; simp at hp
    | some r =>
      rw [hr] at hp
      refine ⟨r, Interleaved.getPoint_ok h hr data hd, h.getElem hr, by simpa using hp⟩
  getPoint_panic := by
    intro i data hi _
    exact Interleaved.getPoint_panic h hl.size_pos (by simpa using hi) data
  getPointRange_ok := by
    intro s e data hse he hd
    have he : e ≤ rs.length := by simpa using he
    have hlen : ((rs.drop s).take (e - s)).length = e - s := by simp; omega
    have hall := (h.drop s).take (e - s)
    refine ⟨((rs.drop s).take (e - s)).flatten, ?_, ?_, ?_⟩
    · show (Interleaved.ofRecords l rs).getPointRange ⟨s, e⟩ data = _
      simp only [Interleaved.getPointRange, bind, Except.bind]
      rw [Interleaved.getPointRangeRef_ok h hse he]
      simp only [copyFromSlice]
      rw [if_pos (by rw [hall.flatten_length, hlen, hd])]
    · rw [hall.flatten_length, hlen]
    · rw [recordsOf_flatten hall hlen, List.map_take, List.map_drop]
  getPointRange_panic := by
    intro s e data hse he _
    show (Interleaved.ofRecords l rs).getPointRange ⟨s, e⟩ data = _
    simp only [Interleaved.getPointRange, bind, Except.bind]
    rw [Interleaved.getPointRangeRef_panic h hl.size_pos (by simpa using he)]
  getAttribute_eq := by
    intro d i data hd
    show (do
      let m ← expectSome (l.getAttribute d)
      (Interleaved.ofRecords l rs).getAttributeUnchecked m i data) = _
    rw [getAttribute_eq]
    cases hf : l.attributes.find? (fun m => m.definition = d) with
    | none =>
      rw [value?_pointOf, hf]
      cases rs[i]? <;> rfl
    | some m =>
      obtain ⟨hm1, hm2⟩ := find_def_some hf
      have := interleaved_unchecked (i := i) (data := data) hl h hm1 (by rw [hd, ← hm2]; rfl)
      rw [hm2] at this
      exact this
  getAttributeUnchecked_eq := by
    intro m i data hm hd
    exact interleaved_unchecked hl h hm hd
  getAttributeRange_eq := by
    intro d s e data hse hd
    apply getAttributeRange_of_unchecked (l := l) rfl _ _ _ _ d s e data hse hd
    · intro p hp m hm
      obtain ⟨r, hr, rfl⟩ := List.mem_map.1 hp
      refine ⟨_, by rw [pointOf_get, find_def_mem hl hm]; rfl, ?_⟩
      have := hl.inside m hm
      exact length_window (by have := h r hr; omega)
    · intro p hp d hd
      obtain ⟨r, hr, rfl⟩ := List.mem_map.1 hp
      rw [pointOf_get, find_def_none hd]; rfl
    · intro m i data hm hd
      exact interleaved_unchecked hl h hm hd
    · intro m i data hm hi
      exact Interleaved.getAttributeUnchecked_panic h (hl.positive m hm) (by simpa using hi) data

theorem interleaved_shows_records (hl : Solid l) (h : AllLen l.size rs) :
    ShowsRecords (Interleaved.ofRecords l rs) l rs where
  points := interleaved_shows_points hl h
  getPoint_eq := by
    intro i data hd
    cases hr : rs[i]? with
    | none => exact Interleaved.getPoint_panic h hl.size_pos (by simpa using hr) data
    | some r => exact Interleaved.getPoint_ok h hr data hd
  getPointRange_eq := by
    intro s e data hse hd
    show (Interleaved.ofRecords l rs).getPointRange ⟨s, e⟩ data = _
    simp only [Interleaved.getPointRange, bind, Except.bind]
    rw [range?_flatten h hl.size_pos (.inl hse)]
    unfold range?
    by_cases he : e ≤ rs.length
    · simp only [if_pos he, Option.map_some, answer, copyFromSlice]
      rw [if_pos]
      rw [((h.drop s).take (e - s)).flatten_length, hd]
      congr 1
      simp; omega
    · simp [if_neg he, answer]
  getPointRef_eq := by
    intro i
    cases hr : rs[i]? with
    | none => exact Interleaved.getPointRef_panic h hl.size_pos (by simpa using hr)
    | some r => exact Interleaved.getPointRef_ok h hr
  getPointRangeRef_eq := fun _ _ hse => range?_flatten h hl.size_pos hse

/-- The length of records does not change. -/
theorem onRecords_allLen (hl : Orderly l) (h : AllLen l.size rs) {op : Op} (hop : op.wellFormed l) :
    AllLen l.size (op.onRecords l rs) := by
  cases op with
  | setPoint i r => exact h.set hop i
  | setPointRange a b data =>
    obtain ⟨hab, hd⟩ := hop
    simp only [Op.onRecords, overwrite]
    exact ((h.take a).append (recordsOf_allLen hd)).append (h.drop _)
  | setAttribute d i v =>
    simp only [Op.onRecords]
    split
    · next m hm =>
      obtain ⟨hm1, hm2⟩ := find_def_some hm
      apply allLen_modify h
      intro r hr
      have hv : v.length = d.size := hop
      have hms : m.size = d.size := by rw [← hm2]; rfl
      have := hl.inside m hm1
      rw [length_overwrite (by omega), hr]
    · exact h
  | setAttributeRange d a b data =>
    simp only [Op.onRecords]
    split
    · next m hm =>
      obtain ⟨hm1, hm2⟩ := find_def_some hm
      apply allLen_mapIdx h
      intro i r hr
      split
      · have : (window data ((i - a) * m.size) m.size).length ≤ m.size := by simp [window]
        have := hl.inside m hm1
        rw [length_overwrite (by omega), hr]
      · exact hr
    · exact h
  | swap i j => exact allLen_exchange h i j
  | pushPoints data =>
    refine h.append (recordsOf_allLen ?_)
    have : data.length % l.size = 0 := hop
    exact (Nat.div_mul_cancel (Nat.dvd_of_mod_eq_zero this)).symm
  | resize n => exact (h.take n).append (AllLen.replicate (by simp) _)
  | clear => exact AllLen.nil

/-- Every operation of `VectorBuffer`, on records. -/
theorem vector_step (hl : Solid l) (h : AllLen l.size rs) (op : Op) (hop : op.wellFormed l) :
    runOp (Interleaved.ofRecords l rs : VectorBuffer) op =
      (op.stepRecords l rs).map (Interleaved.ofRecords l) := by
  unfold Op.stepRecords
  by_cases ha : op.allowed l rs.length
  · rw [if_pos ha]
    show _ = Except.ok _
    cases op with
    | setPoint i r => exact Interleaved.write_block h ha hop
    | setPointRange a b data =>
      obtain ⟨hab, hd⟩ := hop
      have := Interleaved.setPointRange_ok h (r := ⟨a, b⟩) (by show a ≤ b; omega) ha
        (recordsOf_allLen hd) (by simp [recordsOf_length])
      rw [flatten_recordsOf hd] at this
      exact this
    | setAttribute d i v =>
      obtain ⟨m, hm⟩ := find_def_isSome ha.1
      obtain ⟨hm1, hm2⟩ := find_def_some hm
      have hms : m.size = d.size := by rw [← hm2]; rfl
      simp only [Op.onRecords, hm]
      exact Interleaved.setAttribute_ok h hm (hl.inside m hm1) ha.2 (by rw [hms]; exact hop)
    | setAttributeRange d a b data =>
      obtain ⟨hab, hdl⟩ := hop
      obtain ⟨m, hm⟩ := find_def_isSome ha.1
      obtain ⟨hm1, hm2⟩ := find_def_some hm
      have hms : m.size = d.size := by rw [← hm2]; rfl
      simp only [Op.onRecords, hm]
      have := Interleaved.setAttributeRange_ok h hm (hl.inside m hm1) (r := ⟨a, b⟩)
        (by show a ≤ b; omega) ha.2 (data := data) (by rw [hms]; exact hdl)
      have e : Interleaved.setAttrs m a (b - a) data rs = rs.mapIdx fun i r =>
          if a ≤ i ∧ i < b then overwrite r m.offset (window data ((i - a) * m.size) m.size) else r := by
        unfold Interleaved.setAttrs
        rw [show a + (b - a) = b by omega]
      simp only [e] at this
      exact this
    | swap i j => exact Interleaved.swap_ok h ha.1 ha.2
    | pushPoints data =>
      have hd : data.length = data.length / l.size * l.size :=
        (Nat.div_mul_cancel (Nat.dvd_of_mod_eq_zero hop)).symm
      have := Interleaved.pushPoints_ok (rs := rs) hl.size_pos (recordsOf_allLen hd)
      rw [flatten_recordsOf hd] at this
      exact this
    | resize n => exact congrArg Except.ok (Interleaved.resize_ok h n)
    | clear => rfl
  · rw [if_neg ha]
    show _ = Except.error _
    cases op with
    | setPoint i r => exact Interleaved.setPoint_panic h hl.size_pos (Nat.not_lt.1 ha) r
    | setPointRange a b data =>
      exact Interleaved.setPointRange_panic h hl.size_pos (r := ⟨a, b⟩) (Nat.not_le.1 ha) data
    | setAttribute d i v =>
      show Interleaved.setAttribute _ d i v = _
      by_cases hd : d ∈ l.attributes.map Member.definition
      · obtain ⟨m, hm⟩ := find_def_isSome hd
        obtain ⟨hm1, hm2⟩ := find_def_some hm
        exact Interleaved.setAttribute_panic_index h hm (hl.positive m hm1)
          (Nat.not_lt.1 fun hc => ha ⟨hd, hc⟩) v
      · have e : (Interleaved.ofRecords l rs).layout.getAttribute d = none := by
          rw [getAttribute_eq]; exact find_def_none hd
        simp only [Interleaved.setAttribute, e]
        rfl
    | setAttributeRange d a b data =>
      obtain ⟨hab, hdl⟩ := hop
      show Interleaved.setAttributeRange _ d _ data = _
      by_cases hd : d ∈ l.attributes.map Member.definition
      · obtain ⟨m, hm⟩ := find_def_isSome hd
        obtain ⟨hm1, hm2⟩ := find_def_some hm
        have hms : m.size = d.size := by rw [← hm2]; rfl
        exact Interleaved.setAttributeRange_panic h hm (hl.inside m hm1) (hl.positive m hm1)
          (r := ⟨a, b⟩) hab (Nat.not_le.1 fun hc => ha ⟨hd, hc⟩) (by rw [hms]; exact hdl)
      · have e : (Interleaved.ofRecords l rs).layout.getAttribute d = none := by
          rw [getAttribute_eq]; exact find_def_none hd
        simp only [Interleaved.setAttributeRange, e]
        rfl
    | swap i j => exact Interleaved.swap_panic ha
    | pushPoints data => exact absurd trivial ha
    | resize n => exact absurd trivial ha
    | clear => exact absurd trivial ha

theorem stepRecords_allLen (hl : Orderly l) (h : AllLen l.size rs) {op : Op} (hop : op.wellFormed l)
    {rs' : List Bytes} (hs : op.stepRecords l rs = .ok rs') : AllLen l.size rs' := by
  unfold Op.stepRecords at hs
  split at hs
  · cases hs; exact onRecords_allLen hl h hop
  · cases hs

end

end Pasture
