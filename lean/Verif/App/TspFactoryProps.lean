import Verif.App.TspFactory
import Verif.Function.TspLoadProps
import Verif.Representation.AdapterProps

/-! # The travelling salesman made by the factory (C83) -/

namespace Hnco

open Outcome

variable {K : Type} [Field K] [LinearOrder K] [FloorRing K] [IsStrictOrderedRing K]

/-- C83: for a file in TSPLIB format, `hnco -F 200` makes a function of bit vectors whose values are the opposites of lengths of
tours through all cities, with the distances of TSPLIB; conversely, for every tour there is a vector whose value is surely the
opposite of its length. -/
theorem makeTsp_value (sqrt : K → K) (hs : ∀ z, 0 ≤ sqrt z) (ef : List Char → Option (K × List Char))
    (hef : ∀ s v r, ef s = some (v, r) → r.length ≤ s.length) (ceilLog2 : Nat → Nat) (hlog : ∀ m, ceilLog2 m = Nat.clog 2 m)
    (additional : Nat) (hadd : 0 < additional) {text : List Char} {n : Nat} {w : EdgeWeight} {cities : List (Nat × K × K)}
    (h : IsTspFile ef text n w cities) (hbits : Nat.clog 2 n + additional ≤ 31) :
    ∃ g rep, makeTsp sqrt ef ceilLog2 additional text = ok (g, rep) ∧ rep.size = n * (Nat.clog 2 n + additional) ∧
      ∃ (x y : Nat → K) (d : Nat → Nat → K), (∀ i < n, HasCoordinates cities i (x i) (y i)) ∧
      (∀ i j, d i j = d j i) ∧ (∀ i, d i i = 0) ∧
      (∀ i j, i < n → j < n → i ≠ j → w.IsDistance sqrt (x i - x j) (y i - y j) (d i j)) ∧
      (∀ bv : BV, bv.length = rep.size → Sim.Post (permutationAdapterEvaluate (tspEval g) rep bv)
        (fun v => ∃ p : List Nat, p.Perm (List.range n) ∧ v = -tourLength d p)) ∧
      ∀ p : List Nat, p.Perm (List.range n) → ∃ bv : BV, bv.length = rep.size ∧
        Sim.Post (permutationAdapterEvaluate (tspEval g) rep bv) (fun v => v = -tourLength d p) := by
  obtain ⟨st, e1, e2, x, y, e3, e4⟩ := tspLoad_file sqrt hs ef hef h
  have h0 := h.positive
  have hlen : st.distances.length = n := e2.1.1
  have hrep : permutationRepNew ceilLog2 n additional = ok { count := n, elementSize := ceilLog2 n + additional } := by
    unfold permutationRepNew
    rw [assert_pos (by simpa using h0), ok_bind, assert_pos (by simpa using hadd), ok_bind]
  have hvalue : ∀ p : List Nat, p.Perm (List.range n) → tspEval st.distances p = ok (-tourLength (gridEntry st.distances) p) := by
    intro p hp
    refine tsp_value st.distances n h0 e2.1 p (by rw [hp.length_eq, List.length_range]) ?_
    intro a ha
    exact List.mem_range.mp (hp.mem_iff.mp ha)
  refine ⟨st.distances, { count := n, elementSize := ceilLog2 n + additional }, ?_, ?_, x, y, gridEntry st.distances, e3, e2.2.1,
    e2.2.2, e4, ?_, ?_⟩
  · unfold makeTsp
    rw [e1, ok_bind, hlen, hrep, ok_bind, permutationAdapterNew_spec, if_pos rfl, ok_bind]
  · simp only [PermutationRep.size, hlog]
  · intro bv hb
    refine (permutationAdapterEvaluate_spec (tspEval st.distances) hrep (by simp only [hlog]; omega)
      (fun p hp => ⟨_, hvalue p hp⟩) hb).mono ?_
    rintro v ⟨p, hp, -, hv⟩
    rw [hvalue p hp] at hv
    exact ⟨p, hp, (Outcome.ok.inj hv).symm⟩
  · intro p hp
    obtain ⟨bv, hb, hpost, -⟩ := permutationUnpack_onto hrep (by simp only [hlog]; omega) (permutationRepNew_bits hlog hrep) hp
    refine ⟨bv, hb, ?_⟩
    unfold permutationAdapterEvaluate
    refine Sim.Post.bind (Sim.Post.assert (by simpa using hb)) ?_
    intro _ _
    refine Sim.Post.bind hpost ?_
    rintro q rfl
    exact Sim.Post.lift ⟨_, hvalue q hp, rfl⟩

omit [IsStrictOrderedRing K] in
/-- C83 (negative part): for a file without coordinates, `hnco -F 200` does not report an error: the assertion that the number of
elements is positive fails. -/
theorem makeTsp_no_coordinates (sqrt : K → K) (ef : List Char → Option (K × List Char)) (ceilLog2 : Nat → Nat) (additional : Nat)
    (header : List (List Char)) (fields : List TspField) (hnl : ∀ l ∈ header, '\n' ∉ l)
    (hf : List.Forall₂ IsHeaderLine header fields) :
    makeTsp sqrt ef ceilLog2 additional (header.map (fun l => l ++ ['\n'])).flatten = ub := by
  obtain ⟨st, e1, e2⟩ := tspLoad_no_coordinates sqrt ef header fields hnl hf
  unfold makeTsp
  rw [e1, ok_bind, e2]
  rfl

example : ∃ g rep, makeTsp exampleRoot readIntegers (Nat.clog 2) 3 exampleTsp = ok (g, rep) ∧ g.length = 3 ∧ rep.size = 15 :=
  ⟨[[0, 18, 2], [18, 0, 32], [2, 32, 0]], ⟨3, 5⟩, by decide +kernel, rfl, rfl⟩

example : Nat.clog 2 1000 + 3 ≤ 31 := by decide +kernel

end Hnco
