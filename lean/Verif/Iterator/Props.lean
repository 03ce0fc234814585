import Mathlib.Data.Nat.Basic
import Mathlib.Order.Defs.LinearOrder
import Verif.Iterator.Lemmas

/-!
# Properties C06 - C09: iterators and complete search

Specification vocabulary: `bitsToNat x` is the number whose binary expansion is `x`, least
significant bit first.  `Enumerates hasNext next s l` (in `Verif.Base`) says that exhausting the
iterator from state `s` yields the list `l`.
-/

namespace Hnco

open Outcome

/-! ### C06: hypercube iterators -/

/-- What a complete enumeration of the bit vectors of size `n` is: the vectors encoding
`0, 1, ..., 2^n - 1`, in this order. -/
def IsFullEnumeration (n : Nat) (l : List BV) : Prop :=
  (∀ x ∈ l, x.length = n) ∧ l.map bitsToNat = List.range (2 ^ n)

/-- A full enumeration holds every vector of size `n` exactly once. -/
theorem IsFullEnumeration.exactly_once {n : Nat} {l : List BV} (h : IsFullEnumeration n l) :
    l.Nodup ∧ ∀ x : BV, x ∈ l ↔ x.length = n := by
  refine ⟨?_, ?_⟩
  · have : (l.map bitsToNat).Nodup := by rw [h.2]; exact List.nodup_range
    exact (List.pairwise_map.mp this).imp (fun hne he => hne (congrArg _ he))
  · intro x
    refine ⟨h.1 x, fun hx => ?_⟩
    have : bitsToNat x ∈ l.map bitsToNat := by
      rw [h.2]; exact List.mem_range.mpr (hx ▸ bitsToNat_lt x)
    obtain ⟨y, hy, he⟩ := List.mem_map.mp this
    rw [← HypercubeIterator.bitsToNat_inj ((h.1 y hy).trans hx.symm) he]
    exact hy

/-- C06: from the initial state in positive dimension, whatever the stored vector (hence after
construction as well as after re-initialising at any point), the iterator enumerates the hypercube in
the order of the encoded integers. -/
theorem hypercubeIterator_enumerates (it : HypercubeIterator) (h : 0 < it.current.length) :
    ∃ l, Enumerates HypercubeIterator.hasNext HypercubeIterator.next it.init l ∧
      IsFullEnumeration it.current.length l := by
  have h0 : bitsToNat (bvClear it.current) = 0 := HypercubeIterator.bitsToNat_replicate _
  have hlen : (bvClear it.current).length = it.current.length := by simp [bvClear]
  have hpow : 0 < 2 ^ it.current.length := Nat.pow_pos (by omega)
  obtain ⟨l, h1, -, h3, h4⟩ := HypercubeIterator.enumerates_from (2 ^ it.current.length - 1)
    (bvClear it.current) (by rw [h0, hlen]; omega)
  refine ⟨bvClear it.current :: l,
    .step (by simp [HypercubeIterator.hasNext, HypercubeIterator.init, h])
      (by simp [HypercubeIterator.next, HypercubeIterator.hasNext, HypercubeIterator.init, h]) h1,
    ?_, ?_⟩
  · intro x hx
    rcases List.mem_cons.mp hx with rfl | hx
    · exact hlen
    · rw [h3 x hx, hlen]
  · rw [List.map_cons, h4, h0, List.range_eq_range',
      show 2 ^ it.current.length = (2 ^ it.current.length - 1) + 1 by omega, List.range'_succ]
    simp

/-- C06: the same for the extended iterator, in every dimension. -/
theorem extendedHypercubeIterator_enumerates (it : HypercubeIterator) :
    ∃ l, Enumerates HypercubeIterator.extHasNext HypercubeIterator.extNext it.init l ∧
      IsFullEnumeration it.current.length l := by
  have hc : (if 0 < it.current.length then bvClear it.current else it.current)
      = bvClear it.current := by
    split
    · rfl
    · have : it.current = [] := List.eq_nil_of_length_eq_zero (by omega)
      simp [this, bvClear]
  have h0 : bitsToNat (bvClear it.current) = 0 := HypercubeIterator.bitsToNat_replicate _
  have hlen : (bvClear it.current).length = it.current.length := by simp [bvClear]
  have hpow : 0 < 2 ^ it.current.length := Nat.pow_pos (by omega)
  obtain ⟨l, -, h1, h3, h4⟩ := HypercubeIterator.enumerates_from (2 ^ it.current.length - 1)
    (bvClear it.current) (by rw [h0, hlen]; omega)
  refine ⟨bvClear it.current :: l,
    .step (by simp [HypercubeIterator.extHasNext, HypercubeIterator.init])
      (by
        have : it.init.extNext
          = ok ((if 0 < it.current.length then bvClear it.current else it.current),
              { current := if 0 < it.current.length then bvClear it.current else it.current,
                initialState := false }) := rfl
        rw [this, hc]) h1,
    ?_, ?_⟩
  · intro x hx
    rcases List.mem_cons.mp hx with rfl | hx
    · exact hlen
    · rw [h3 x hx, hlen]
  · rw [List.map_cons, h4, h0, List.range_eq_range',
      show 2 ^ it.current.length = (2 ^ it.current.length - 1) + 1 by omega, List.range'_succ]
    simp

/-- C06: in dimension 0 the plain iterator yields nothing, the extended one the empty vector. -/
theorem hypercubeIterator_dimension_zero :
    Enumerates HypercubeIterator.hasNext HypercubeIterator.next (.new 0) [] ∧
      Enumerates HypercubeIterator.extHasNext HypercubeIterator.extNext (.new 0) [[]] :=
  ⟨.done rfl, .step rfl rfl (.done rfl)⟩

example : Enumerates HypercubeIterator.hasNext HypercubeIterator.next (.new 2)
    [[false, false], [true, false], [false, true], [true, true]] :=
  .step rfl rfl (.step rfl rfl (.step rfl rfl (.step rfl rfl (.done rfl))))

example : ∃ l, Enumerates HypercubeIterator.hasNext HypercubeIterator.next (.new 5) l ∧
    IsFullEnumeration 5 l := hypercubeIterator_enumerates (.new 5) (by decide)

/-! ### C07: complete search -/

theorem completeSearch_loop {V : Type} [LinearOrder V] (f : BV → V) (n : Nat)
    {it : HypercubeIterator} {l : List BV}
    (hl : Enumerates HypercubeIterator.hasNext HypercubeIterator.next it l) :
    ∀ (sol : BV × V) (tr : List BV), (∀ y ∈ l, y.length = n) → sol.2 = f sol.1 →
      sol.1 ∈ tr → (∀ y ∈ tr, f y ≤ sol.2) →
      ∃ s, WhileTo (fun s : SearchState V => s.it.hasNext) (completeSearchBody f)
          { solution := sol, it := it, evaluated := tr } (ok s) ∧
        s.evaluated = tr ++ l ∧ s.solution.2 = f s.solution.1 ∧ s.solution.1 ∈ tr ++ l ∧
        ∀ y ∈ tr ++ l, f y ≤ s.solution.2 := by
  induction hl with
  | done h =>
    intro sol tr _ h1 h2 h3
    exact ⟨_, .done h, by simp, h1, by simpa using h2, by simpa using h3⟩
  | @step it it' x l hn hx _ ih =>
    intro sol tr hlen h1 h2 h3
    obtain ⟨s, hs, e1, e2, e3, e4⟩ := ih
      (if sol.2 < f x then (x, f x) else sol) (tr ++ [x])
      (fun y hy => hlen y (by simp [hy]))
      (by split <;> simp [h1])
      (by split <;> simp [h2])
      (by
        intro y hy
        rcases List.mem_append.mp hy with hy | hy
        · split
          · exact le_of_lt (lt_of_le_of_lt (h3 y hy) (by assumption))
          · exact h3 y hy
        · simp only [List.mem_singleton] at hy
          subst hy
          split
          · exact le_refl _
          · exact not_lt.mp (by assumption))
    refine ⟨s, .step hn (by simp [completeSearchBody, hx]) hs, by simp [e1], e2, ?_, ?_⟩
    · simpa using e3
    · simpa using e4

/-- C07: complete search terminates, has evaluated each vector of size `n` exactly once, and returns
a vector of size `n`, with its value, which is a global maximum. -/
theorem completeSearch_correct {V : Type} [LinearOrder V] (f : BV → V) (n : Nat) (hn : 0 < n) :
    ∃ s, CompleteSearchRuns f n (ok s) ∧
      (∀ r, CompleteSearchRuns f n r → r = ok s) ∧
      s.solution.1.length = n ∧ s.solution.2 = f s.solution.1 ∧
      (∀ y : BV, y.length = n → f y ≤ s.solution.2) ∧
      s.evaluated.Nodup ∧ ∀ y : BV, y ∈ s.evaluated ↔ y.length = n := by
  obtain ⟨l, hl, hfull⟩ := hypercubeIterator_enumerates (.new n) (by simp [HypercubeIterator.new, hn])
  have hlen : (HypercubeIterator.new n).current.length = n := by simp [HypercubeIterator.new]
  rw [hlen] at hfull
  obtain ⟨hnd, hmem⟩ := hfull.exactly_once
  cases hl with
  | done h =>
    exfalso
    have := (hmem (List.replicate n false)).mpr (by simp)
    simp at this
  | @step _ it' x l hx hnext hrest =>
    have hx' : (HypercubeIterator.new n).hasNext = ok true := hx
    have hnext' : (HypercubeIterator.new n).next = ok (x, it') := hnext
    have hstart : completeSearchStart f n
        = ok { solution := (x, f x), it := it', evaluated := [x] } := by
      simp [completeSearchStart, hn, hx', hnext']
    obtain ⟨s, hs, e1, e2, e3, e4⟩ := completeSearch_loop f n hrest (x, f x) [x]
      (fun y hy => hfull.1 y (by simp [hy])) rfl (by simp) (by simp)
    have hruns : CompleteSearchRuns f n (ok s) := by
      unfold CompleteSearchRuns; rw [hstart]; exact hs
    refine ⟨s, hruns, ?_, ?_, e2, ?_, ?_, ?_⟩
    · intro r hr
      unfold CompleteSearchRuns at hr
      rw [hstart] at hr
      exact hr.deterministic hs
    · exact (hmem _).mp (by simpa using e3)
    · intro y hy
      exact e4 y (by simpa using (hmem y).mpr hy)
    · rw [e1]; simpa using hnd
    · intro y; rw [e1]; simpa using hmem y

example : ∃ s, CompleteSearchRuns (fun x => (x.count true : Nat)) 3 (ok s) ∧ 3 ≤ s.solution.2 := by
  obtain ⟨s, h, -, -, -, hmax, -⟩ := completeSearch_correct (fun x => (x.count true : Nat)) 3 (by decide)
  exact ⟨s, h, hmax [true, true, true] rfl⟩

end Hnco
