import Verif.App.FfgenLemmas
import Verif.Serialization.Props
import Verif.Function.CnfProps
import Verif.Function.SudokuFileProps
import Verif.Function.MaxSatProps

/-!
# C80: the instances written by `ffgen`

`N` is the set of the values of normal deviates and `U` that of uniform deviates.
-/

namespace Hnco

open Outcome

variable {K : Type} [Ring K] [LT K] [DecidableLT K]

theorem scaledNormal_exactly {num : Numerics K} {N : K → Prop} (hN : Sim.Exactly num.normal N) (s : K) :
    Sim.Exactly (scaledNormal num s) (ScaledBy N s) :=
  (hN.map fun x => s * x).congr fun v => by
    constructor
    · rintro ⟨x, rfl, hx⟩; exact ⟨x, hx, rfl⟩
    · rintro ⟨x, hx, rfl⟩; exact ⟨x, rfl, hx⟩

/-- C80: with generator 0, the linear functions which are written are exactly those with `bv_size` weights which are multiples
of normal deviates by the standard deviation. -/
theorem ffgen_linear_normal {num : Numerics K} {N : K → Prop} (hN : Sim.Exactly num.normal N) (o : FfgenOptions K)
    (hf : o.function = 1) (hg : o.linGenerator = 0) (hn : 0 < o.bvSize) :
    Sim.Exactly (ffgen num o) (fun file => ∃ w, file = .archive (saveReals w) ∧
      (w.length = o.bvSize ∧ ∀ v ∈ w, ScaledBy N o.stddev v)) := by
  have h : ffgen num o = (do
      let w ← vectorGenerate (scaledNormal num o.stddev) o.bvSize
      pure (.archive (saveReals w))) := by
    simp only [ffgen, hf, ffgenLinear, hg, linearGenerate, vectorGenerate]
    congr 1
    refine congrArg _ (funext fun _ => ?_)
    exact stdGenerate_unit _ _
  rw [h]
  exact (vectorGenerate_exactly (scaledNormal_exactly hN _) hn).map _

/-- C80: with generators 1 and 2, the weights are the terms of the arithmetic and geometric progressions of the given initial
weight and difference or ratio, whatever the draws. -/
theorem ffgen_linear_progression (num : Numerics K) (o : FfgenOptions K) (hf : o.function = 1) (hn : 0 < o.bvSize) :
    (o.linGenerator = 1 → ffgen num o = pure (.archive (saveReals
      ((List.range o.bvSize).map fun i : Nat => o.linInitialWeight + i * o.linDistance)))) ∧
    (o.linGenerator = 2 → ffgen num o = pure (.archive (saveReals
      ((List.range o.bvSize).map fun i : Nat => o.linInitialWeight * o.linRatio ^ i)))) := by
  have ha : (Sim.lift (assert (decide (o.bvSize > 0))) : Sim Unit) = pure () := by
    rw [assert_pos (decide_eq_true hn)]; rfl
  constructor
  · intro hg
    have := stdGenerate_pure (out := fun w : K => w) (next := fun w => w + o.linDistance)
      (fun i => o.linInitialWeight + i * o.linDistance) (fun i => by
        rw [Nat.cast_add, Nat.cast_one, add_mul, one_mul, add_assoc]) (List.replicate o.bvSize 0)
    simp only [Nat.cast_zero, zero_mul, add_zero, List.length_replicate] at this
    have hl : linearGenerate (fun (w : K) => pure (w, w + o.linDistance)) o.linInitialWeight o.bvSize = pure
        ((List.range o.bvSize).map fun i : Nat => o.linInitialWeight + i * o.linDistance) := by
      unfold linearGenerate
      rw [ha, vresize_nil]
      exact this
    simp only [ffgen, hf, ffgenLinear, hg, hl]
    rfl
  · intro hg
    have := stdGenerate_pure (out := fun w : K => w) (next := fun w => w * o.linRatio)
      (fun i => o.linInitialWeight * o.linRatio ^ i) (fun i => by rw [pow_succ, mul_assoc]) (List.replicate o.bvSize 0)
    simp only [pow_zero, mul_one, List.length_replicate] at this
    have hl : linearGenerate (fun (w : K) => pure (w, w * o.linRatio)) o.linInitialWeight o.bvSize = pure
        ((List.range o.bvSize).map fun i : Nat => o.linInitialWeight * o.linRatio ^ i) := by
      unfold linearGenerate
      rw [ha, vresize_nil]
      exact this
    simp only [ffgen, hf, ffgenLinear, hg, hl]
    rfl

/-- C80: the numbers of the functions given by a vector: multiples of uniform deviates by the upper bound for equal products,
multiples of normal deviates for Walsh expansions of degree 1, and all integers between 1 and the upper bound for partitions. -/
theorem ffgen_vectors {num : Numerics K} {N U : K → Prop} (hN : Sim.Exactly num.normal N) (hU : Sim.Exactly num.uniform U)
    (o : FfgenOptions K) (hn : 0 < o.bvSize) :
    (o.function = 90 → Sim.Exactly (ffgen num o) (fun file => ∃ w, file = .archive (saveReals w) ∧
      (w.length = o.bvSize ∧ ∀ v ∈ w, ScaledBy U o.epUpperBound v))) ∧
    (o.function = 161 → Sim.Exactly (ffgen num o) (fun file => ∃ w, file = .archive (saveReals w) ∧
      (w.length = o.bvSize ∧ ∀ v ∈ w, ScaledBy N o.stddev v))) ∧
    (o.function = 91 → 0 < o.partUpperBound → Sim.Exactly (ffgen num o) (fun file => ∃ w, file = .archive (saveInts w) ∧
      (w.length = o.bvSize ∧ ∀ v ∈ w, 1 ≤ v ∧ v ≤ o.partUpperBound))) := by
  refine ⟨fun hf => ?_, fun hf => ?_, fun hf hu => ?_⟩
  · simp only [ffgen, hf]
    refine (vectorGenerate_exactly (P := ScaledBy U o.epUpperBound) ?_ hn).map _
    exact (hU.map fun x => o.epUpperBound * x).congr fun v => by
      constructor
      · rintro ⟨x, rfl, hx⟩; exact ⟨x, hx, rfl⟩
      · rintro ⟨x, hx, rfl⟩; exact ⟨x, rfl, hx⟩
  · simp only [ffgen, hf]
    exact (vectorGenerate_exactly (scaledNormal_exactly hN _) hn).map _
  · simp only [ffgen, hf, partitionRandom]
    refine Sim.Exactly.map (Sim.Exactly.assert (decide_eq_true hn) (Sim.Exactly.assert (decide_eq_true hu) ?_)) _
    refine vectorGenerate_exactly ?_ hn
    have hd : Sim.Exactly (Sim.uniformInt 1 o.partUpperBound) (fun d => 1 ≤ d ∧ d ≤ o.partUpperBound) :=
      ⟨Sim.Post.uniformInt hu, fun d hd => Sim.Reaches.uniformInt hd.1 hd.2⟩
    exact (hd.map fun d : Nat => (d : Int)).congr fun v => by
      constructor
      · rintro ⟨d, rfl, h1, h2⟩; omega
      · rintro ⟨h1, h2⟩; exact ⟨v.toNat, by omega, by omega, by omega⟩

/-- C80: the NK landscapes which are written are exactly those of size `bv_size` where each bit has `nk_k` distinct other
neighbours, with tables of multiples of normal deviates. -/
theorem ffgen_nk {num : Numerics K} {N : K → Prop} (hN : Sim.Exactly num.normal N) (o : FfgenOptions K) (hf : o.function = 60)
    (hk : 0 < o.nkK) (hkn : o.nkK < o.bvSize) (hk29 : o.nkK ≤ 29) :
    Sim.Exactly (ffgen num o) (fun file => ∃ f, file = .archive (saveNk f) ∧
      (NkValid o.bvSize o.nkK f ∧ ∀ p ∈ f.partials, ∀ v ∈ p, ScaledBy N o.stddev v)) := by
  simp only [ffgen, hf]
  have hs := scaledNormal_exactly hN o.stddev
  exact Sim.Exactly.map ⟨nkGenerate_valid hs.1 hk hkn hk29, fun f h => nkGenerate_onto hk hkn hk29 h.1
    fun p hp v hv => hs.2 v (h.2 p hp v hv)⟩ _

/-- C80: the Walsh expansions which are written are exactly those with the given number of terms, whose features have
`bv_size` bits and whose coefficients are multiples of normal deviates. -/
theorem ffgen_walsh {num : Numerics K} {N : K → Prop} (hN : Sim.Exactly num.normal N) (o : FfgenOptions K)
    (hf : o.function = 160) (hn : 0 < o.bvSize) (hk : 0 < o.walshNumFeatures) :
    Sim.Exactly (ffgen num o) (fun file => ∃ terms, file = .archive (saveWalsh terms) ∧
      (terms.length = o.walshNumFeatures ∧ ∀ t ∈ terms, t.feature.length = o.bvSize ∧ ScaledBy N o.stddev t.coefficient)) := by
  simp only [ffgen, hf]
  exact (walshGenerate_exactly (scaledNormal_exactly hN _) hn hk).map _

/-- C80: with generator 0, the Walsh expansions of degree 2 which are written are exactly those with `bv_size` linear terms and
a quadratic term for each pair of bits, all multiples of normal deviates. -/
theorem ffgen_walsh2 {num : Numerics K} {N : K → Prop} (hN : Sim.Exactly num.normal N) (o : FfgenOptions K)
    (hf : o.function = 162) (hg : o.walsh2Generator = 0) (hn : 0 < o.bvSize) :
    Sim.Exactly (ffgen num o) (fun file => ∃ f : List K × List (List K), file = .archive (saveWalsh2 f) ∧
      ((f.1.length = o.bvSize ∧ ∀ v ∈ f.1, ScaledBy N o.stddev v) ∧
        f.2.map List.length = List.range o.bvSize ∧ ∀ row ∈ f.2, ∀ v ∈ row, ScaledBy N o.stddev v)) := by
  have hs := scaledNormal_exactly hN o.stddev
  simp only [ffgen, hf, ffgenWalsh2, hg]
  exact (walsh2Generate_exactly hs hs hn).map _

/-- C80: with generator 1, whatever the draws, the linear terms are zero and the term of a pair of bits is the power of exponent
`-alpha` of their distance. -/
theorem ffgen_walsh2_long_range (num : Numerics K) (o : FfgenOptions K) (hf : o.function = 162) (hg : o.walsh2Generator = 1)
    (hn : 0 < o.bvSize) :
    ffgen num o = pure (.archive (saveWalsh2 (List.replicate o.bvSize 0, (List.range o.bvSize).map fun i =>
      (List.range i).map fun j => num.power ((i - j : Nat) : K) (-o.walsh2Alpha)))) := by
  have h : walsh2LongRange num.power o.walsh2Alpha o.bvSize = ok (List.replicate o.bvSize 0, (List.range o.bvSize).map fun i =>
      (List.range i).map fun j => num.power ((i - j : Nat) : K) (-o.walsh2Alpha)) := by
    simp only [walsh2LongRange]
    rw [assert_pos (decide_eq_true hn), ok_bind, walsh2Resize_eq hn, ok_bind]
    simp only [List.length_map, List.length_range]
    rw [walsh2Fill_eq hn (fun i j => num.power ((i - j : Nat) : K) (-o.walsh2Alpha))]
    · rw [ok_bind, List.map_replicate]; rfl
    · intro i j g hj
      rw [assert_pos (decide_eq_true hj), ok_bind]
  simp only [ffgen, hf, ffgenWalsh2, hg, h]
  rfl

/-- C80: with periodic boundary conditions, the term of a pair of bits is the power of exponent `-alpha` of their distance on
the circle. -/
theorem walsh2LongRangePeriodic_eq (power : K → K → K) (alpha : K) {n : Nat} (hn : 0 < n) :
    walsh2LongRangePeriodic power alpha n = ok (List.replicate n 0, (List.range n).map fun i =>
      (List.range i).map fun j => power ((min (i - j) (n - (i - j)) : Nat) : K) (-alpha)) := by
  simp only [walsh2LongRangePeriodic]
  rw [assert_pos (decide_eq_true hn), ok_bind, walsh2Resize_eq hn, ok_bind]
  simp only [List.length_map, List.length_range]
  rw [walsh2Fill_eq hn (fun i j => power ((min (i - j) (n - (i - j)) : Nat) : K) (-alpha))]
  · rw [ok_bind, List.map_replicate]; rfl
  · intro i j g hj
    rw [assert_pos (decide_eq_true hj), ok_bind]

theorem couplingLaw_exactly {num : Numerics K} {N : K → Prop} (hN : Sim.Exactly num.normal N) (o : FfgenOptions K) (g : Nat) :
    Sim.Exactly (if g = 0 ∨ g = 1 then scaledNormal num o.stddev else pure o.couplingConstant) (CouplingLaw N o g) := by
  unfold CouplingLaw
  by_cases h : g = 0 ∨ g = 1
  · simp only [if_pos h]; exact scaledNormal_exactly hN _
  · simp only [if_neg h]; exact Sim.Exactly.pure _

theorem fieldLaw_exactly {num : Numerics K} {N : K → Prop} (hN : Sim.Exactly num.normal N) (o : FfgenOptions K) (g : Nat) :
    Sim.Exactly (if g = 0 ∨ g = 2 then scaledNormal num o.stddev else pure o.fieldConstant) (FieldLaw N o g) := by
  unfold FieldLaw
  by_cases h : g = 0 ∨ g = 2
  · simp only [if_pos h]; exact scaledNormal_exactly hN _
  · simp only [if_neg h]; exact Sim.Exactly.pure _

/-- C80: the Ising models in one dimension which are written are exactly those of size `bv_size`, with the couplings and the
fields of the generator, and with the requested boundary conditions. -/
theorem ffgen_ising1 {num : Numerics K} {N : K → Prop} (hN : Sim.Exactly num.normal N) (o : FfgenOptions K)
    (hf : o.function = 171) (hg : o.nn1Generator < 4) (hn : 0 < o.bvSize) :
    Sim.Exactly (ffgen num o) (fun file => ∃ m, file = .archive (saveIsing1 m) ∧
      IsIsing1 o.bvSize (CouplingLaw N o o.nn1Generator) (FieldLaw N o o.nn1Generator) o.periodic m) := by
  have key := ising1Generate_exactly (couplingLaw_exactly hN o o.nn1Generator) (fieldLaw_exactly hN o o.nn1Generator) hn
  have h : ffgen num o = (do
      let m ← ising1Generate (if o.nn1Generator = 0 ∨ o.nn1Generator = 1 then scaledNormal num o.stddev else pure o.couplingConstant)
        (if o.nn1Generator = 0 ∨ o.nn1Generator = 2 then scaledNormal num o.stddev else pure o.fieldConstant) o.bvSize
      pure (.archive (saveIsing1 { m with periodic := o.periodic }))) := by
    simp only [ffgen, hf, ffgenIsing1]
    obtain h0 | h1 | h2 | h3 : o.nn1Generator = 0 ∨ o.nn1Generator = 1 ∨ o.nn1Generator = 2 ∨ o.nn1Generator = 3 := by omega
    · simp [h0]
    · simp [h1]
    · simp [h2]
    · simp [h3]
  rw [h]
  refine (key.map _).congr fun file => ?_
  constructor
  · rintro ⟨m, rfl, h1, h2, h3, h4, -⟩
    exact ⟨_, rfl, h1, h2, h3, h4, rfl⟩
  · rintro ⟨m, rfl, h1, h2, h3, h4, h5⟩
    refine ⟨{ m with periodic := false }, ?_, h1, h2, h3, h4, rfl⟩
    rw [← h5]

/-- C80: the Ising models in two dimensions which are written are exactly those with the given numbers of rows and columns, with
the couplings and the fields of the generator, and with the requested boundary conditions. -/
theorem ffgen_ising2 {num : Numerics K} {N : K → Prop} (hN : Sim.Exactly num.normal N) (o : FfgenOptions K)
    (hf : o.function = 172) (hg : o.nn2Generator < 4) (hr : 0 < o.nn2Rows) (hc : 0 < o.nn2Columns) :
    Sim.Exactly (ffgen num o) (fun file => ∃ m, file = .archive (saveIsing2 m) ∧
      IsIsing2 o.nn2Rows o.nn2Columns (CouplingLaw N o o.nn2Generator) (FieldLaw N o o.nn2Generator) o.periodic m) := by
  have key := ising2Generate_exactly (couplingLaw_exactly hN o o.nn2Generator) (fieldLaw_exactly hN o o.nn2Generator) hr hc
  have h : ffgen num o = (do
      let m ← ising2Generate (if o.nn2Generator = 0 ∨ o.nn2Generator = 1 then scaledNormal num o.stddev else pure o.couplingConstant)
        (if o.nn2Generator = 0 ∨ o.nn2Generator = 2 then scaledNormal num o.stddev else pure o.fieldConstant) o.nn2Rows o.nn2Columns
      let _ ← Sim.lift (ising2Size m)
      pure (.archive (saveIsing2 { m with periodic := o.periodic }))) := by
    simp only [ffgen, hf, ffgenIsing2]
    obtain h0 | h1 | h2 | h3 : o.nn2Generator = 0 ∨ o.nn2Generator = 1 ∨ o.nn2Generator = 2 ∨ o.nn2Generator = 3 := by omega
    · simp [h0]
    · simp [h1]
    · simp [h2]
    · simp [h3]
  rw [h]
  constructor
  · refine key.1.bind fun m hm => ?_
    refine (Sim.Post.lift (P := fun _ => True) ⟨_, ising2Size_eq m _ _ hr hm.fields, trivial⟩).bind fun _ _ => Sim.Post.pure ?_
    exact ⟨_, rfl, hm.rights, hm.belows, hm.fields, hm.right, hm.below, hm.field, rfl⟩
  · rintro _ ⟨m, rfl, hm⟩
    refine (key.2 { m with periodic := false } ⟨hm.rights, hm.belows, hm.fields, hm.right, hm.below, hm.field, rfl⟩).bind ?_
    refine Sim.Reaches.bind (Sim.Reaches.lift (ising2Size_eq _ _ _ hr hm.fields)) ?_
    have : ({ m with periodic := o.periodic } : Ising2 K) = m := by rw [← hm.boundary]
    rw [← this]
    exact Sim.Reaches.pure _

/-- C80: a MaxSat instance has the requested numbers of variables, clauses and literals per clause, is read back from its file,
and is satisfiable if a planted solution is requested. -/
theorem ffgen_maxSat {num : Numerics K} (hu : ∀ d n j, 0 < n → num.deviate d j < num.ratio n n) (o : FfgenOptions K)
    (hf : o.function = 70) (hk : 0 < o.msNumLiterals) (hc : 0 < o.msNumClauses) (hkn : o.msNumLiterals ≤ o.bvSize)
    (hn : o.bvSize ≤ 2147483647) (hcn : o.msNumClauses ≤ 2147483647) :
    Sim.Post (ffgen num o) (fun file => ∃ text e, file = .text text ∧ cnfLoad text = ok ((o.bvSize : Int), e) ∧
      IsInstance o.bvSize o.msNumLiterals o.msNumClauses e ∧
      (o.msPlanted = true → ∃ x, x.length = o.bvSize ∧ maxSatEval e x = ok o.msNumClauses)) := by
  have hload : ∀ e, IsInstance o.bvSize o.msNumLiterals o.msNumClauses e →
      cnfLoad (cnfSave o.bvSize e) = ok ((o.bvSize : Int), e) := by
    intro e he
    refine cnf_roundtrip _ e (by omega) (by omega) ?_ ?_ ?_
    · rintro rfl
      have := he.1
      simp at this
      omega
    · rw [he.1]; exact hcn
    · simpa using he.2.1
  simp only [ffgen, hf, ffgenMaxSat]
  cases hp : o.msPlanted with
  | true =>
    simp only [if_true]
    refine Sim.Post.bind (P := fun e => IsInstance o.bvSize o.msNumLiterals o.msNumClauses e ∧
      ∃ x : BV, x.length = o.bvSize ∧ maxSatEval e x = ok o.msNumClauses) ?_ ?_
    · refine (bvRandomBits_post _).bind fun x hx => ?_
      refine (maxSatRandomPlanted_instance num.ratio num.deviate hu x _ _ hk hc (by omega)).mono ?_
      rintro e ⟨h1, -, h3⟩
      exact ⟨hx ▸ h1, x, hx, h3⟩
    · rintro e ⟨h1, h2⟩
      exact Sim.Post.pure ⟨_, e, rfl, hload e h1, h1, fun _ => h2⟩
  | false =>
    simp only [Bool.false_eq_true, if_false]
    refine (maxSatRandom_instance num.ratio num.deviate hu _ _ _ hk hc hkn).bind fun e h1 => ?_
    exact Sim.Post.pure ⟨_, e, rfl, hload e h1, h1, fun h => by cases h⟩

/-- C80: a sudoku is read back from its file, has the requested number of empty cells, and has a solution. -/
theorem ffgen_sudoku {num : Numerics K} (hu : ∀ d n j, 0 < n → num.deviate d j < num.ratio n n) (o : FfgenOptions K)
    (hf : o.function = 190) (hc : 0 < o.sudokuEmptyCells) (hc81 : o.sudokuEmptyCells ≤ 81) :
    Sim.Post (ffgen num o) (fun file => ∃ text t, file = .text text ∧ sudokuLoad Sudoku.new text = ok t ∧
      t.numVariables = some o.sudokuEmptyCells ∧
      ∃ x t', x.length = o.sudokuEmptyCells ∧ (∀ v ∈ x, v < 9) ∧ sudokuEval t x = ok (0, t')) := by
  simp only [ffgen, hf]
  refine (sudokuRandom_solvable num.ratio num.deviate hu Sudoku.new sudokuNew_boards.1 _ hc hc81 Sudoku.new
    sudokuNew_boards.1 sudokuNew_boards.2).bind ?_
  rintro s ⟨text, t, h1, h2, -, h3, h4⟩
  refine (Sim.Post.lift (P := fun x => x = text) ⟨text, h1, rfl⟩).bind fun _ h => h ▸ ?_
  exact Sim.Post.pure ⟨text, t, rfl, h2, h3, h4⟩

/-- C80: an unknown function or generator is an error, and no file is written. -/
theorem ffgen_unknown (num : Numerics K) (o : FfgenOptions K) (ds : List Nat) :
    (o.function ∉ [1, 60, 70, 90, 91, 160, 161, 162, 171, 172, 190] ∨ (o.function = 1 ∧ 3 ≤ o.linGenerator) ∨
      (o.function = 162 ∧ 2 ≤ o.walsh2Generator) ∨ (o.function = 171 ∧ 4 ≤ o.nn1Generator) ∨
      (o.function = 172 ∧ 4 ≤ o.nn2Generator)) → ffgen num o ds = .throw .runtimeError := by
  rintro (h | ⟨hf, hg⟩ | ⟨hf, hg⟩ | ⟨hf, hg⟩ | ⟨hf, hg⟩)
  · simp only [List.mem_cons, List.not_mem_nil, or_false, not_or] at h
    have : ffgen num o = Sim.lift (Outcome.throw .runtimeError) := by
      unfold ffgen
      split <;> first | (exfalso; omega) | rfl
    rw [this]; rfl
  · obtain ⟨k, hk⟩ : ∃ k, o.linGenerator = k + 3 := ⟨o.linGenerator - 3, by omega⟩
    simp only [ffgen, hf, ffgenLinear, hk]
    rfl
  · obtain ⟨k, hk⟩ : ∃ k, o.walsh2Generator = k + 2 := ⟨o.walsh2Generator - 2, by omega⟩
    simp only [ffgen, hf, ffgenWalsh2, hk]
    rfl
  · obtain ⟨k, hk⟩ : ∃ k, o.nn1Generator = k + 4 := ⟨o.nn1Generator - 4, by omega⟩
    simp only [ffgen, hf, ffgenIsing1, hk]
    rfl
  · obtain ⟨k, hk⟩ : ∃ k, o.nn2Generator = k + 4 := ⟨o.nn2Generator - 4, by omega⟩
    simp only [ffgen, hf, ffgenIsing2, hk]
    rfl

/-- C80 (negative part): the option `bv_size` does not matter for an Ising model in two dimensions: the model has as many sites
as the product of the numbers of rows and columns. -/
theorem ffgen_ising2_size (num : Numerics K) (o : FfgenOptions K) (hf : o.function = 172) (n : Nat) :
    ffgen num { o with bvSize := n } = ffgen num o := by
  simp only [ffgen, hf, ffgenIsing2]

/-! ## Examples -/

/-- Natural numbers as deviates. -/
def exampleNumerics : Numerics Rat where
  normal := do
    let d ← Sim.draw
    pure (d : Rat)
  uniform := Sim.uniform
  power := fun x _ => 1 / x
  ratio := fun a b => (a : Rat) / b
  deviate := fun _ _ => 0

/-- Default options of `ffgen` with smaller sizes. -/
def exampleFfgen (function generator : Nat) : FfgenOptions Rat where
  function := function
  bvSize := 3
  stddev := 2
  linGenerator := generator
  linInitialWeight := 1
  linDistance := 1
  linRatio := 2
  nkK := 2
  msNumClauses := 2
  msNumLiterals := 2
  msPlanted := true
  epUpperBound := 1
  partUpperBound := 100
  walshNumFeatures := 2
  walsh2Generator := generator
  walsh2Alpha := 1
  nn1Generator := generator
  nn2Generator := generator
  nn2Rows := 2
  nn2Columns := 2
  couplingConstant := 1
  fieldConstant := 1
  periodic := true
  sudokuEmptyCells := 10

example : Sim.Exactly exampleNumerics.normal (fun x => ∃ d : Nat, x = d) :=
  ⟨Sim.Post.draw.bind fun d _ => Sim.Post.pure ⟨d, rfl⟩, fun x ⟨d, hd⟩ => hd ▸ (Sim.Reaches.draw d).bind (Sim.Reaches.pure _)⟩

example : ∀ d n j, 0 < n → exampleNumerics.deviate d j < exampleNumerics.ratio n n := by
  intro d n j hn
  have : (n : Rat) ≠ 0 := by exact_mod_cast hn.ne'
  simp [exampleNumerics, div_self this]

example : ffgen exampleNumerics (exampleFfgen 1 2) [] = .ok (.archive [.int 3, .real 1, .real 2, .real 4]) [] := by
  decide +kernel

example : ffgen exampleNumerics (exampleFfgen 162 1) [] =
    .ok (.archive [.int 3, .real 0, .real 0, .real 0, .int 3, .int 0, .int 1, .real 1, .int 2, .real (1 / 2), .real 1]) [] := by
  decide +kernel

example : ffgen exampleNumerics (exampleFfgen 171 1) [5, 6, 7, 8] =
    .ok (.archive [.int 3, .real 10, .real 12, .real 14, .int 3, .real 1, .real 1, .real 1, .int 1]) [8] := by
  decide +kernel

end Hnco
