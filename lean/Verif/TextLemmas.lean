import Verif.Text
import Mathlib.Tactic.IntervalCases

/-!
# Helper lemmas about text streams
-/

namespace Hnco

open Outcome

theorem splitLines_ne_nil (s : List Char) : splitLines s ≠ [] := by
  cases s with
  | nil => simp [splitLines]
  | cons c t =>
    unfold splitLines
    split
    · simp
    · split <;> simp

theorem splitLines_append (l rest : List Char) (h : '\n' ∉ l) :
    splitLines (l ++ '\n' :: rest) = l :: splitLines rest := by
  induction l with
  | nil => simp [splitLines]
  | cons c t ih =>
    have hc : c ≠ '\n' := by rintro rfl; simp at h
    simp only [List.cons_append, splitLines, hc, if_false]
    rw [ih (fun h' => h (List.mem_cons_of_mem _ h'))]

/-- A text made of lines, each ended by a newline. -/
def unlines : List (List Char) → List Char
  | [] => []
  | l :: ls => l ++ '\n' :: unlines ls

theorem splitLines_unlines (ls : List (List Char)) (h : ∀ l ∈ ls, '\n' ∉ l) :
    splitLines (unlines ls) = ls ++ [[]] := by
  induction ls with
  | nil => simp [unlines, splitLines]
  | cons l ls ih =>
    rw [unlines, splitLines_append _ _ (h l (by simp)), ih (fun l hl => h l (by simp [hl]))]
    rfl

theorem digitChar_isDigit {n : Nat} (h : n < 10) : (digitChar n).isDigit = true := by
  interval_cases n <;> decide

theorem digitChar_val {n : Nat} (h : n < 10) : (digitChar n).toNat - 48 = n := by
  interval_cases n <;> decide

theorem showNat_digits (n : Nat) : ∀ c ∈ showNat n, c.isDigit = true := by
  induction n using Nat.strong_induction_on with
  | _ n ih =>
    intro c hc
    rw [showNat] at hc
    split at hc
    · rename_i h
      simp only [List.mem_singleton] at hc
      rw [hc]; exact digitChar_isDigit h
    · rcases List.mem_append.mp hc with hc | hc
      · exact ih (n / 10) (by omega) c hc
      · simp only [List.mem_singleton] at hc
        rw [hc]; exact digitChar_isDigit (Nat.mod_lt _ (by omega))

theorem showNat_value (n : Nat) : digitsValue (showNat n) = n := by
  induction n using Nat.strong_induction_on with
  | _ n ih =>
    rw [showNat]
    split
    · rename_i h
      simp only [digitsValue, List.foldl_cons, List.foldl_nil, digitChar_val h]; omega
    · have := ih (n / 10) (by omega)
      unfold digitsValue at this ⊢
      rw [List.foldl_append, this]
      simp only [List.foldl_cons, List.foldl_nil, digitChar_val (Nat.mod_lt n (show 0 < 10 by omega))]
      omega

theorem showNat_ne_nil (n : Nat) : showNat n ≠ [] := by
  rw [showNat]; split <;> simp

theorem isDigit_not_isSpace {c : Char} (h : c.isDigit = true) : isSpace c = false := by
  by_contra hc
  have : isSpace c = true := by simpa using hc
  simp only [isSpace, Bool.or_eq_true, beq_iff_eq] at this
  rcases this with ((((rfl | rfl) | rfl) | rfl) | rfl) | rfl <;> revert h <;> decide

theorem takeWhile_append_stop {α : Type} (p : α → Bool) (l rest : List α) (hl : ∀ a ∈ l, p a = true)
    (hr : ∀ a, rest.head? = some a → p a = false) :
    (l ++ rest).takeWhile p = l ∧ (l ++ rest).dropWhile p = rest := by
  rw [List.takeWhile_append_of_pos hl, List.dropWhile_append_of_pos hl]
  cases rest with
  | nil => simp
  | cons a t =>
    have := hr a rfl
    simp [this]

/-- Reading a written integer gives the integer and leaves what follows, if that is not a digit. -/
theorem extractInt_showInt (z : Int) (h1 : -2147483648 ≤ z) (h2 : z ≤ 2147483647) (rest : List Char)
    (hr : ∀ c, rest.head? = some c → c.isDigit = false) (sp : List Char) (hsp : ∀ c ∈ sp, isSpace c = true) :
    extractInt (sp ++ (showInt z ++ rest)) = some (z, rest) := by
  have hdig := showNat_digits z.natAbs
  obtain ⟨ht, hd⟩ := takeWhile_append_stop Char.isDigit (showNat z.natAbs) rest hdig hr
  obtain ⟨d, ds, hds⟩ : ∃ d ds, showNat z.natAbs = d :: ds := by
    rcases hs : showNat z.natAbs with _ | ⟨d, ds⟩
    · exact absurd hs (showNat_ne_nil _)
    · exact ⟨d, ds, rfl⟩
  have hd0 : d.isDigit = true := hdig d (by rw [hds]; simp)
  have hskip : ∀ (c : Char) (t : List Char), isSpace c = false → skipSpace (sp ++ (c :: t)) = c :: t := by
    intro c t hc
    unfold skipSpace
    rw [List.dropWhile_append_of_pos hsp]
    simp [hc]
  have hval : digitsValue (showNat z.natAbs) = z.natAbs := showNat_value _
  unfold extractInt
  by_cases hneg : z < 0
  · have hs : showInt z = '-' :: showNat z.natAbs := by simp [showInt, hneg]
    rw [hs, List.cons_append, hskip '-' _ (by decide)]
    have he : extractSign ('-' :: (showNat z.natAbs ++ rest)) = (true, showNat z.natAbs ++ rest) := by
      simp [extractSign]
    simp only [he, ht, hd, if_neg (showNat_ne_nil z.natAbs), hval, if_true]
    rw [if_pos (by omega)]
    congr 2
    omega
  · have hs : showInt z = showNat z.natAbs := by simp [showInt, hneg]
    rw [hs]
    have hne1 : d ≠ '-' := by rintro rfl; revert hd0; decide
    have hne2 : d ≠ '+' := by rintro rfl; revert hd0; decide
    have he : extractSign (skipSpace (sp ++ (showNat z.natAbs ++ rest))) = (false, showNat z.natAbs ++ rest) := by
      rw [hds, List.cons_append, hskip d _ (isDigit_not_isSpace hd0)]
      simp [extractSign, hne1, hne2]
    simp only [he, ht, hd, if_neg (showNat_ne_nil z.natAbs), hval]
    simp only [Bool.false_eq_true, if_false]
    rw [if_pos (by omega)]
    congr 2
    omega

/-- Reading a token. -/
theorem extractToken_append (w rest : List Char) (hne : w ≠ []) (hw : ∀ c ∈ w, isSpace c = false)
    (hr : ∀ c, rest.head? = some c → isSpace c = true) (sp : List Char) (hsp : ∀ c ∈ sp, isSpace c = true) :
    extractToken (sp ++ (w ++ rest)) = some (w, rest) := by
  obtain ⟨d, ds, rfl⟩ : ∃ d ds, w = d :: ds := by
    rcases w with _ | ⟨d, ds⟩
    · exact absurd rfl hne
    · exact ⟨d, ds, rfl⟩
  have hskip : skipSpace (sp ++ (d :: ds ++ rest)) = d :: ds ++ rest := by
    unfold skipSpace
    rw [List.dropWhile_append_of_pos hsp]
    have := hw d (by simp)
    simp [this]
  obtain ⟨ht, hd⟩ := takeWhile_append_stop (fun c => !isSpace c) (d :: ds) rest
    (fun c hc => by simp [hw c hc]) (fun c hc => by simp [hr c hc])
  unfold extractToken
  simp only [hskip, ht, hd]
  simp

theorem newline_not_mem_showInt (z : Int) : '\n' ∉ showInt z := by
  have key : '\n' ∉ showNat z.natAbs := by
    intro h
    have := showNat_digits _ _ h
    revert this
    decide
  unfold showInt
  split
  · intro h
    rcases List.mem_cons.mp h with h | h
    · revert h; decide
    · exact key h
  · exact key

example : extractInt [' ', '-', '1', '2', 'x'] = some (-12, ['x']) := by decide
example : extractInt ['2', '1', '4', '7', '4', '8', '3', '6', '4', '8'] = none := by decide
example : splitLines ['a', '\n', '\n', 'b'] = [['a'], [], ['b']] := by decide

end Hnco
