import Verif.Lemmas.AsciiFloats

/-! # Columns and lines -/

namespace Pasture.Ascii

open Pasture.Spec Pasture.Spec.Ascii

/-! ## Columns -/

theorem splitLoop_skip (d f rest : List Char) : ∀ u : List Char,
    splitLoop d u.length f (u ++ rest) = splitLoop d 0 f rest := by
  intro u
  induction u with
  | nil => rfl
  | cons a u ih => rw [List.cons_append, List.length_cons, splitLoop, ih]

theorem not_prefix_inside {d c rest : List Char} (hc : c ≠ []) (h : ¬ d <:+: c ++ d.dropLast) :
    ¬ d <+: c ++ d ++ rest := by
  intro hp
  apply h
  have hlen : d.length ≤ (c ++ d.dropLast).length := by
    have : 0 < c.length := List.length_pos_iff.2 hc
    rw [List.length_append, List.length_dropLast]
    omega
  have hpre : c ++ d.dropLast <+: c ++ d ++ rest := by
    rw [List.append_assoc]
    refine (List.prefix_append_right_inj c).2 ?_
    exact (List.dropLast_prefix d).trans (List.prefix_append d rest)
  exact (List.prefix_of_prefix_length_le hp hpre hlen).isInfix

theorem splitLoop_more {d : List Char} (hd : d ≠ []) (rest : List Char) : ∀ (c f : List Char),
    ¬ d <:+: c ++ d.dropLast → splitLoop d 0 f (c ++ d ++ rest) = (f.reverse ++ c) :: splitLoop d 0 [] rest := by
  intro c
  induction c with
  | nil =>
    intro f _
    obtain ⟨a, u, rfl⟩ := List.exists_cons_of_ne_nil hd
    rw [List.nil_append, List.append_nil, List.cons_append, splitLoop, if_pos (by simp),
      List.length_cons, Nat.add_sub_cancel, splitLoop_skip]
  | cons a c ih =>
    intro f h
    have hn := not_prefix_inside (rest := rest) (List.cons_ne_nil a c) h
    rw [List.cons_append, List.cons_append] at hn ⊢
    rw [splitLoop, if_neg hn, ih]
    · simp
    · intro h'
      exact h (h'.trans (List.suffix_cons a (c ++ d.dropLast)).isInfix)

theorem splitLoop_last {d : List Char} : ∀ (s f : List Char), ¬ d <:+: s → splitLoop d 0 f s = [f.reverse ++ s] := by
  intro s
  induction s with
  | nil => intro f _; rw [splitLoop, List.append_nil]
  | cons a s ih =>
    intro f h
    rw [splitLoop, if_neg fun hp => h hp.isInfix, ih]
    · simp
    · intro h'
      exact h (h'.trans (List.suffix_cons a s).isInfix)

theorem pieces_split {d : List Char} (hd : d ≠ []) {s : List Char} {cols : List (List Char)} (h : Pieces d s cols) :
    splitLoop d 0 [] s = cols := by
  induction h with
  | last s h => rw [splitLoop_last s [] h]; rfl
  | more c rest cols h _ ih => rw [splitLoop_more hd rest c [] h, ih]; rfl

theorem pieces_exist {d : List Char} (hd : d ≠ []) : ∀ (n : Nat) (s : List Char), s.length ≤ n →
    ∃ cols, Pieces d s cols := by
  intro n
  induction n with
  | zero =>
    intro s hs
    obtain rfl : s = [] := List.length_eq_zero_iff.1 (by omega)
    exact ⟨_, .last [] fun h => hd (List.infix_nil.1 h)⟩
  | succ n ih =>
    intro s hs
    by_cases h : d <:+: s
    · classical
      have hex : ∃ k, ∃ c rest, s = c ++ d ++ rest ∧ c.length = k := by
        obtain ⟨c, rest, h⟩ := h
        exact ⟨c.length, c, rest, h.symm, rfl⟩
      obtain ⟨c, rest, hs', hc⟩ := Nat.find_spec hex
      have hmin : ¬ d <:+: c ++ d.dropLast := by
        rintro ⟨u, v, huv⟩
        have hlen : u.length < c.length := by
          have := congrArg List.length huv
          have h0 : 0 < d.length := List.length_pos_iff.2 hd
          simp only [List.length_append, List.length_dropLast] at this
          omega
        refine Nat.find_min hex (m := u.length) (by omega) ⟨u, v ++ (d.drop (d.length - 1) ++ rest), ?_, rfl⟩
        rw [hs', ← List.append_assoc (u ++ d), huv, List.append_assoc c d.dropLast, List.dropLast_eq_take,
          ← List.append_assoc (d.take _), List.take_append_drop, List.append_assoc]
      have h0 : 0 < d.length := List.length_pos_iff.2 hd
      obtain ⟨cols, hcols⟩ := ih rest (by
        have := congrArg List.length hs'
        simp only [List.length_append] at this
        omega)
      exact ⟨c :: cols, hs' ▸ .more c rest cols hmin hcols⟩
    · exact ⟨_, .last s h⟩

theorem split_iff (d s : List Char) (cols : List (List Char)) : split s d = cols ↔ LineColumns d s cols := by
  unfold split LineColumns
  by_cases h : d = []
  · rw [if_pos h, if_pos h, eq_comm]
  · rw [if_neg h, if_neg h]
    constructor
    · rintro rfl
      obtain ⟨cols, hc⟩ := pieces_exist h s.length s (Nat.le_refl _)
      rw [pieces_split h hc]
      exact hc
    · exact pieces_split h

/-! ## Lines -/

theorem takeWhile_line {s rest : List Char} (h : '\n' ∉ s) :
    (s ++ '\n' :: rest).takeWhile (fun c => c ≠ '\n') = s := by
  rw [List.takeWhile_append_of_pos]
  · simp
  · intro c hc
    exact decide_eq_true fun h' => h (h' ▸ hc)

theorem nextLine_none {text : List Char} (h : Lines text []) : text = [] ∧ nextLine text = none := by
  cases h
  exact ⟨rfl, rfl⟩

theorem nextLine_some {text l : List Char} {ls : List (List Char)} (h : Lines text (l :: ls)) :
    ∃ rest, nextLine text = some (l, rest) ∧ Lines rest ls := by
  unfold nextLine
  cases h with
  | last l h1 h2 =>
    have ht : text.takeWhile (fun c => c ≠ '\n') = text := by
      have := List.takeWhile_append_of_pos (p := fun c => decide (c ≠ '\n')) (l₁ := text) (l₂ := [])
        fun c hc => decide_eq_true fun h' => h2 (h' ▸ hc)
      simpa using this
    rw [if_neg h1]
    dsimp only
    rw [ht, if_pos rfl]
    exact ⟨[], rfl, .none⟩
  | lf l rest _ h1 h2 h3 =>
    rw [if_neg (by simp)]
    dsimp only
    rw [takeWhile_line h1, if_neg (by simp), if_neg h2, List.drop_append, List.drop_of_length_le (by omega)]
    exact ⟨_, rfl, by simpa using h3⟩
  | crlf l rest _ h1 h2 =>
    have h1' : '\n' ∉ l ++ ['\r'] := by
      rw [List.mem_append]
      rintro (h | h)
      · exact h1 h
      · exact absurd (List.mem_singleton.1 h) (by decide)
    rw [if_neg (by simp)]
    dsimp only
    have he : l ++ '\r' :: '\n' :: rest = (l ++ ['\r']) ++ '\n' :: rest := by simp
    rw [he, takeWhile_line h1', if_neg (by simp), if_pos (by simp), List.dropLast_concat, List.drop_append,
      List.drop_of_length_le (by omega)]
    exact ⟨_, rfl, by simpa using h2⟩

theorem lines_exist : ∀ (n : Nat) (text : List Char), text.length ≤ n → ∃ ls, Lines text ls := by
  intro n
  induction n with
  | zero =>
    intro text h
    obtain rfl : text = [] := List.length_eq_zero_iff.1 (by omega)
    exact ⟨_, .none⟩
  | succ n ih =>
    intro text h
    by_cases h0 : text = []
    · exact ⟨[], h0 ▸ .none⟩
    · by_cases h1 : '\n' ∈ text
      · obtain ⟨s, rest, hs, hn⟩ := List.eq_append_cons_of_mem h1
        obtain ⟨ls, hls⟩ := ih rest (by
          have := congrArg List.length hs
          simp only [List.length_append, List.length_cons] at this
          omega)
        by_cases hr : s.getLast? = some '\r'
        · obtain ⟨s', rfl⟩ : ∃ s', s = s' ++ ['\r'] := by
            obtain ⟨s', hs'⟩ := List.getLast?_eq_some_iff.1 hr
            exact ⟨s', hs'⟩
          refine ⟨s' :: ls, ?_⟩
          rw [hs, List.append_assoc]
          exact .crlf s' rest ls (fun h => hn (List.mem_append_left _ h)) hls
        · exact ⟨s :: ls, hs ▸ .lf s rest ls hn hr hls⟩
      · exact ⟨[text], .last text h0 h1⟩

end Pasture.Ascii
