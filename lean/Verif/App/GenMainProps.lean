import Verif.App.GenMainLemmas
import Verif.App.FactoryFileProps
import Verif.App.MainCommandProps

/-!
# The programs `ffgen` and `mapgen`, from the command line to the file, and then `hnco` (C96)
-/

namespace Hnco

open Outcome

variable {w : GenWorld} {argv : List (List Char)} {items : List (OptDoc × Option (List Char))} {o : FfgenOptions Rat}
  {path : List Char} {N U : Rat → Prop}

/-- C96: linear functions.  Whatever the random numbers, `ffgen` succeeds and the file is at the path; `hnco` then finds the sum of
the weights of the bits which are set, the weights being as requested. -/
theorem ffgen_program_linear (h : FfgenCommand w argv items o path) (hw : w.writable path = true)
    (hN : Sim.Exactly w.num.normal N) (hf : o.function = 1) (hg : o.linGenerator < 3) (hn : 0 < o.bvSize) :
    Sim.Post (ffgenMain w argv) (fun e => ∃ file, e = .exit 0 (some (path, file)) ∧ ∃ a : List Rat, a.length = o.bvSize ∧
      (o.linGenerator = 0 → ∀ v ∈ a, ScaledBy N o.stddev v) ∧
      (o.linGenerator = 1 → ∀ i < o.bvSize, entry a i = o.linInitialWeight + i * o.linDistance) ∧
      (o.linGenerator = 2 → ∀ i < o.bvSize, entry a i = o.linInitialWeight * o.linRatio ^ i) ∧
      HncoFinds file path 1 o.bvSize fun x v => v = ∑ i ∈ Finset.range o.bvSize, if x[i]? = some true then entry a i else 0) := by
  refine ((ffgenMain_post h (ffgen_hnco_linear hN o hf hg hn) (by omega)).1 hw).mono ?_
  rintro e ⟨file, ⟨a, h1, h2, h3, h4, h5⟩, rfl⟩
  exact ⟨file, rfl, a, h1, h2, h3, h4, hncoFinds_of_loads fun lib fo seen hfo hs => ⟨_, h5 lib fo seen hfo hs, fun _ _ => rfl⟩⟩

/-- C96: equal products. -/
theorem ffgen_program_products (h : FfgenCommand w argv items o path) (hw : w.writable path = true)
    (hN : Sim.Exactly w.num.normal N) (hU : Sim.Exactly w.num.uniform U) (hf : o.function = 90) (hn : 0 < o.bvSize) :
    Sim.Post (ffgenMain w argv) (fun e => ∃ file, e = .exit 0 (some (path, file)) ∧ ∃ a : List Rat, a.length = o.bvSize ∧
      (∀ v ∈ a, ScaledBy U o.epUpperBound v) ∧
      HncoFinds file path 90 o.bvSize fun x v => v = -|(side a x true).prod - (side a x false).prod|) := by
  refine ((ffgenMain_post h ((ffgen_hnco_vectors hN hU o hn).1 hf) (by omega)).1 hw).mono ?_
  rintro e ⟨file, ⟨a, h1, h2, h5⟩, rfl⟩
  exact ⟨file, rfl, a, h1, h2, hncoFinds_of_loads fun lib fo seen hfo hs => ⟨_, h5 lib fo seen hfo hs, fun _ _ => rfl⟩⟩

/-- C96: Walsh expansions of degree 1. -/
theorem ffgen_program_walsh1 (h : FfgenCommand w argv items o path) (hw : w.writable path = true)
    (hN : Sim.Exactly w.num.normal N) (hU : Sim.Exactly w.num.uniform U) (hf : o.function = 161) (hn : 0 < o.bvSize) :
    Sim.Post (ffgenMain w argv) (fun e => ∃ file, e = .exit 0 (some (path, file)) ∧ ∃ a : List Rat, a.length = o.bvSize ∧
      (∀ v ∈ a, ScaledBy N o.stddev v) ∧
      HncoFinds file path 161 o.bvSize fun x v => v = ∑ i ∈ Finset.range o.bvSize, entry a i * spin Rat x i) := by
  refine ((ffgenMain_post h ((ffgen_hnco_vectors hN hU o hn).2.1 hf) (by omega)).1 hw).mono ?_
  rintro e ⟨file, ⟨a, h1, h2, h5⟩, rfl⟩
  exact ⟨file, rfl, a, h1, h2, hncoFinds_of_loads fun lib fo seen hfo hs => ⟨_, h5 lib fo seen hfo hs, fun _ _ => rfl⟩⟩

/-- C96: partitions. -/
theorem ffgen_program_partition (h : FfgenCommand w argv items o path) (hw : w.writable path = true)
    (hN : Sim.Exactly w.num.normal N) (hU : Sim.Exactly w.num.uniform U) (hf : o.function = 91) (hn : 0 < o.bvSize)
    (hu : 0 < o.partUpperBound) :
    Sim.Post (ffgenMain w argv) (fun e => ∃ file, e = .exit 0 (some (path, file)) ∧ ∃ a : List Int, a.length = o.bvSize ∧
      (∀ v ∈ a, 1 ≤ v ∧ v ≤ o.partUpperBound) ∧
      HncoFinds file path 91 o.bvSize fun x v => v = -|((side a x true).sum : Rat) - (side a x false).sum|) := by
  refine ((ffgenMain_post h ((ffgen_hnco_vectors hN hU o hn).2.2 hf hu) (by omega)).1 hw).mono ?_
  rintro e ⟨file, ⟨a, h1, h2, h5⟩, rfl⟩
  exact ⟨file, rfl, a, h1, h2, hncoFinds_of_loads fun lib fo seen hfo hs => ⟨_, h5 lib fo seen hfo hs, fun _ _ => rfl⟩⟩

/-- C96: NK landscapes. -/
theorem ffgen_program_nk (h : FfgenCommand w argv items o path) (hw : w.writable path = true)
    (hN : Sim.Exactly w.num.normal N) (hf : o.function = 60) (hk : 0 < o.nkK) (hkn : o.nkK < o.bvSize) (hk29 : o.nkK ≤ 29) :
    Sim.Post (ffgenMain w argv) (fun e => ∃ file, e = .exit 0 (some (path, file)) ∧ ∃ nk : Nk Rat, NkValid o.bvSize o.nkK nk ∧
      (∀ p ∈ nk.partials, ∀ v ∈ p, ScaledBy N o.stddev v) ∧
      HncoFinds file path 60 o.bvSize fun x v => ∃ terms : List Rat, v = terms.sum / o.bvSize ∧ terms.length = o.bvSize ∧
        ∀ i, i < o.bvSize → ∃ row table t, nk.neighbors[i]? = some row ∧ nk.partials[i]? = some table ∧ terms[i]? = some t ∧
          NkTerm x row table t) := by
  refine ((ffgenMain_post h (ffgen_hnco_nk hN o hf hk hkn hk29) (by omega)).1 hw).mono ?_
  rintro e ⟨file, ⟨nk, h1, h2, h5⟩, rfl⟩
  exact ⟨file, rfl, nk, h1, h2, hncoFinds_of_loads fun lib fo seen hfo hs => h5 lib fo seen hfo hs⟩

/-- C96: Walsh expansions. -/
theorem ffgen_program_walsh (h : FfgenCommand w argv items o path) (hw : w.writable path = true)
    (hN : Sim.Exactly w.num.normal N) (hf : o.function = 160) (hn : 0 < o.bvSize) (hk : 0 < o.walshNumFeatures) :
    Sim.Post (ffgenMain w argv) (fun e => ∃ file, e = .exit 0 (some (path, file)) ∧ ∃ terms : List (WalshTerm Rat),
      terms.length = o.walshNumFeatures ∧ (∀ t ∈ terms, t.feature.length = o.bvSize ∧ ScaledBy N o.stddev t.coefficient) ∧
      HncoFinds file path 160 o.bvSize fun x v => v = (terms.map fun t => walshSign Rat x t.feature * t.coefficient).sum) := by
  refine ((ffgenMain_post h (ffgen_hnco_walsh hN o hf hn hk) (by omega)).1 hw).mono ?_
  rintro e ⟨file, ⟨a, h1, h2, h5⟩, rfl⟩
  exact ⟨file, rfl, a, h1, h2, hncoFinds_of_loads fun lib fo seen hfo hs => ⟨_, h5 lib fo seen hfo hs, fun _ _ => rfl⟩⟩

/-- C96: Walsh expansions of degree 2. -/
theorem ffgen_program_walsh2 (h : FfgenCommand w argv items o path) (hw : w.writable path = true)
    (hN : Sim.Exactly w.num.normal N) (hf : o.function = 162) (hg : o.walsh2Generator < 2) (hn : 0 < o.bvSize) :
    Sim.Post (ffgenMain w argv) (fun e => ∃ file, e = .exit 0 (some (path, file)) ∧
      ∃ (linear : List Rat) (quadratic : List (List Rat)), linear.length = o.bvSize ∧
        quadratic.map List.length = List.range o.bvSize ∧
        (o.walsh2Generator = 0 → (∀ v ∈ linear, ScaledBy N o.stddev v) ∧ ∀ row ∈ quadratic, ∀ v ∈ row, ScaledBy N o.stddev v) ∧
        (o.walsh2Generator = 1 → (∀ v ∈ linear, v = 0) ∧ ∀ i < o.bvSize, ∀ j < i,
          gridEntry quadratic i j = w.num.power ((i - j : Nat) : Rat) (-o.walsh2Alpha)) ∧
        HncoFinds file path 162 o.bvSize fun x v => v = ∑ i ∈ Finset.range o.bvSize, entry linear i * spin Rat x i +
          ∑ i ∈ Finset.range o.bvSize, ∑ j ∈ Finset.range i, gridEntry quadratic i j * spin Rat x i * spin Rat x j) := by
  refine ((ffgenMain_post h (ffgen_hnco_walsh2 hN o hf hg hn) (by omega)).1 hw).mono ?_
  rintro e ⟨file, ⟨l, q, h1, h2, h3, h4, h5⟩, rfl⟩
  exact ⟨file, rfl, l, q, h1, h2, h3, h4, hncoFinds_of_loads fun lib fo seen hfo hs => ⟨_, h5 lib fo seen hfo hs, fun _ _ => rfl⟩⟩

/-- C96: Ising models in one dimension. -/
theorem ffgen_program_ising1 (h : FfgenCommand w argv items o path) (hw : w.writable path = true)
    (hN : Sim.Exactly w.num.normal N) (hf : o.function = 171) (hg : o.nn1Generator < 4) (hn : 0 < o.bvSize) :
    Sim.Post (ffgenMain w argv) (fun e => ∃ file, e = .exit 0 (some (path, file)) ∧ ∃ m : Ising1 Rat,
      IsIsing1 o.bvSize (CouplingLaw N o o.nn1Generator) (FieldLaw N o o.nn1Generator) o.periodic m ∧
      HncoFinds file path 171 o.bvSize fun x v => v =
        ∑ i ∈ Finset.range (o.bvSize - 1), entry m.coupling i * spin Rat x i * spin Rat x (i + 1) +
        (if o.periodic then entry m.coupling (o.bvSize - 1) * spin Rat x (o.bvSize - 1) * spin Rat x 0 else 0) +
        ∑ i ∈ Finset.range o.bvSize, entry m.field i * spin Rat x i) := by
  refine ((ffgenMain_post h (ffgen_hnco_ising1 hN o hf hg hn) (by omega)).1 hw).mono ?_
  rintro e ⟨file, ⟨m, h1, h5⟩, rfl⟩
  exact ⟨file, rfl, m, h1, hncoFinds_of_loads fun lib fo seen hfo hs => ⟨_, h5 lib fo seen hfo hs, fun _ _ => rfl⟩⟩

/-- C96: Ising models in two dimensions. -/
theorem ffgen_program_ising2 (h : FfgenCommand w argv items o path) (hw : w.writable path = true)
    (hN : Sim.Exactly w.num.normal N) (hf : o.function = 172) (hg : o.nn2Generator < 4) (hr : 0 < o.nn2Rows) (hc : 0 < o.nn2Columns) :
    Sim.Post (ffgenMain w argv) (fun e => ∃ file, e = .exit 0 (some (path, file)) ∧ ∃ m : Ising2 Rat,
      IsIsing2 o.nn2Rows o.nn2Columns (CouplingLaw N o o.nn2Generator) (FieldLaw N o o.nn2Generator) o.periodic m ∧
      HncoFinds file path 172 (o.nn2Rows * o.nn2Columns) fun x v => v =
        ∑ i ∈ Finset.range o.nn2Rows, ∑ j ∈ Finset.range (o.nn2Columns - 1),
          gridEntry m.right i j * spin Rat x (i * o.nn2Columns + j) * spin Rat x (i * o.nn2Columns + (j + 1)) +
        ∑ i ∈ Finset.range (o.nn2Rows - 1), ∑ j ∈ Finset.range o.nn2Columns,
          gridEntry m.below i j * spin Rat x (i * o.nn2Columns + j) * spin Rat x ((i + 1) * o.nn2Columns + j) +
        (if o.periodic then
          ∑ i ∈ Finset.range o.nn2Rows, gridEntry m.right i (o.nn2Columns - 1) *
            spin Rat x (i * o.nn2Columns + (o.nn2Columns - 1)) * spin Rat x (i * o.nn2Columns) +
          ∑ j ∈ Finset.range o.nn2Columns, gridEntry m.below (o.nn2Rows - 1) j *
            spin Rat x ((o.nn2Rows - 1) * o.nn2Columns + j) * spin Rat x j else 0) +
        ∑ i ∈ Finset.range o.nn2Rows, ∑ j ∈ Finset.range o.nn2Columns,
          gridEntry m.field i j * spin Rat x (i * o.nn2Columns + j)) := by
  refine ((ffgenMain_post h (ffgen_hnco_ising2 hN o hf hg hr hc) (by omega)).1 hw).mono ?_
  rintro e ⟨file, ⟨m, h1, h5⟩, rfl⟩
  exact ⟨file, rfl, m, h1, hncoFinds_of_loads fun lib fo seen hfo hs => ⟨_, h5 lib fo seen hfo hs, fun _ _ => rfl⟩⟩

/-- C96: MaxSat: the function counts the satisfied clauses; with a planted solution, some bit vector satisfies all of them. -/
theorem ffgen_program_maxSat (h : FfgenCommand w argv items o path) (hw : w.writable path = true)
    (hu : ∀ d n j, 0 < n → w.num.deviate d j < w.num.ratio n n) (hf : o.function = 70) (hk : 0 < o.msNumLiterals)
    (hc : 0 < o.msNumClauses) (hkn : o.msNumLiterals ≤ o.bvSize) :
    Sim.Post (ffgenMain w argv) (fun e => ∃ file, e = .exit 0 (some (path, file)) ∧
      ∃ clauses, IsInstance o.bvSize o.msNumLiterals o.msNumClauses clauses ∧
        (o.msPlanted = true → ∃ x : BV, x.length = o.bvSize ∧ ∀ clause ∈ clauses, ∃ lit ∈ clause, LitTrue x lit) ∧
        HncoFinds file path 70 o.bvSize fun x v => v = ((clauses.countP fun clause => ∃ lit ∈ clause, LitTrue x lit : Nat) : Rat)) := by
  obtain ⟨k, hk1, hk2⟩ := h.settings.bvSize
  have hp : o.msPlanted = true → 0 < o.bvSize := fun _ => by omega
  refine ((ffgenMain_post h (ffgen_hnco_maxSat hu o hf hk hc hkn (size_small h.settings.bvSize) (size_small h.settings.msNumClauses))
    (fun _ => hp)).1 hw).mono ?_
  rintro e ⟨file, ⟨clauses, h1, h5⟩, rfl⟩
  refine ⟨file, rfl, clauses, h1, fun hpl => ?_, hncoFinds_of_loads fun lib fo seen hfo hs => ⟨_, (h5 lib fo seen hfo hs).1, fun _ _ => rfl⟩⟩
  cases file with
  | archive tokens => exact (h5 exampleLib (exampleFactory 70 1) ⟨[], some tokens⟩ rfl rfl).2 hpl
  | text t => exact (h5 exampleLib (exampleFactory 70 1) ⟨t, none⟩ rfl rfl).2 hpl

/-- C96: Sudoku: whatever the function options of `hnco`, with both categorical representations, the function has a bit vector
of value zero, which is the largest value. -/
theorem ffgen_program_sudoku (h : FfgenCommand w argv items o path) (hw : w.writable path = true)
    (hu : ∀ d n j, 0 < n → w.num.deviate d j < w.num.ratio n n) (hf : o.function = 190) (hc : 0 < o.sudokuEmptyCells)
    (hc81 : o.sudokuEmptyCells ≤ 81) :
    Sim.Post (ffgenMain w argv) (fun e => ∃ file, e = .exit 0 (some (path, file)) ∧
      ∀ (lib : FactoryLib Rat) (fo : FactoryOptions) (seen : InstanceFile Rat), fo.function = 190 → 0 < fo.bvSize →
        fo.categorical < 2 → seen.Holds file → ∃ s reps, makeFunction lib fo seen = ok (.sudoku s reps) ∧ SudokuPlayable Rat s reps ∧
          reps.length = o.sudokuEmptyCells ∧ ∃ bv : BV, bv.length = (reps.map Rep.size).sum ∧
            ∀ vars : List Nat, vars.length = reps.length → ∃ s', sudokuFnEval s reps vars bv = ok ((0 : Rat), s')) := by
  refine ((ffgenMain_post h (ffgen_hnco_sudoku hu o hf hc hc81) (by omega)).1 hw).mono ?_
  rintro e ⟨file, h5, rfl⟩
  exact ⟨file, rfl, h5⟩

/-- C96: an unknown function, or an unknown generator of functions, is an error: the exit status is 1, and there is no file. -/
theorem ffgen_program_unknown (h : FfgenCommand w argv items o path)
    (hun : o.function ∉ [1, 60, 70, 90, 91, 160, 161, 162, 171, 172, 190] ∨ (o.function = 1 ∧ 3 ≤ o.linGenerator) ∨
      (o.function = 162 ∧ 2 ≤ o.walsh2Generator) ∨ (o.function = 171 ∧ 4 ≤ o.nn1Generator) ∨
      (o.function = 172 ∧ 4 ≤ o.nn2Generator)) : Sim.Post (ffgenMain w argv) (fun e => e = .exit 1 none) := by
  refine ffgenMain_throw h (fun ds => ffgen_unknown w.num o ds hun) ?_
  rintro h70
  rw [h70] at hun
  simp at hun

/-- C96: whatever the options and the random numbers, either the exit status is 0, the file at the path can be opened, and it is
written; or there is no file, and either the exit status is 1, or a planted solution of negative size has been asked for, or the
behaviour is undefined. -/
theorem ffgen_program_ends (h : FfgenCommand w argv items o path) {ds rest : List Nat} {e : GenEnd}
    (he : ffgenMain w argv ds = .ok e rest) :
    (w.writable path = true ∧ ∃ file, e = .exit 0 (some (path, file))) ∨ e = .exit 1 none ∨ e = .undefined ∨
      (e = .terminated ∧ o.function = 70 ∧ o.msPlanted = true ∧ ∃ size < 0, ParamOf ffgenClass w.opt items "bv-size" (.int size)) := by
  obtain ⟨size, h1, h2⟩ := ffgenMain_read h
  rw [h2] at he
  split at he
  · rename_i hneg
    cases he
    exact .inr (.inr (.inr ⟨rfl, hneg.1, hneg.2.1, size, hneg.2.2, h1⟩))
  · rw [show ∀ F : FfgenFile Rat → Sim GenEnd, ffgen w.num o >>= F = Sim.bind (ffgen w.num o) F from fun _ => rfl] at he
    unfold genCatch Sim.bind at he
    cases hm : ffgen w.num o ds with
    | ok file rest' =>
      rw [hm] at he
      by_cases hw : w.writable path = true
      · simp only [hw, if_pos] at he
        cases he
        exact .inl ⟨hw, file, rfl⟩
      · simp only [hw, Bool.false_eq_true, if_false, Sim.lift] at he
        cases he
        exact .inr (.inl rfl)
    | throw x =>
      rw [hm] at he
      cases he
      exact .inr (.inl rfl)
    | ub =>
      rw [hm] at he
      cases he
      exact .inr (.inr (.inl rfl))
    | out =>
      rw [hm] at he
      cases he

/-- C96 (negative part): a planted solution of negative size ends the program with an exception which is not caught. -/
theorem ffgen_planted_negative (h : FfgenCommand w argv items o path) (hf : o.function = 70) (hp : o.msPlanted = true) {size : Int}
    (hs : ParamOf ffgenClass w.opt items "bv-size" (.int size)) (hneg : size < 0) :
    Sim.Post (ffgenMain w argv) (fun e => e = .terminated) := by
  obtain ⟨size', h1, h2⟩ := ffgenMain_read h
  cases h1.unique ffgenClass_mem hs
  rw [h2, if_pos ⟨hf, hp, hneg⟩]
  exact Sim.Post.genCatch (Sim.Post.pure rfl)

/-- C96: a command line which follows the help page and the values of which can be read has options and a path. -/
theorem ffgen_command (hl : CommandLine ffgenClass.help argv items) (hf : ∀ i ∈ items, FineItem w.opt i) :
    ∃ o path, FfgenCommand w argv items o path := by
  obtain ⟨s, -, hs⟩ := options_read ffgenClass_mem w.opt false hl hf
  have hi := fun i {name member} (h : ffgenParams[i]? = some (name, member, .int)) => exists_size ffgenClass_mem hs hf (ffgenParam_ok i h)
  have hch := fun i {name member} other (h : ffgenParams[i]? = some (name, member, .int)) =>
    exists_choice ffgenClass_mem hs hf (ffgenParam_ok i h) other
  have hd := fun i {name member} (h : ffgenParams[i]? = some (name, member, .double)) =>
    exists_double ffgenClass_mem hs hf (ffgenParam_ok i h)
  obtain ⟨path, -, hpath⟩ := get_str ffgenClass_mem hs hf (ffgenParam_ok 22 rfl)
  obtain ⟨z0, e0⟩ := hch 0 2 rfl
  obtain ⟨z1, e1⟩ := hi 1 rfl
  obtain ⟨z2, e2⟩ := hd 2 rfl
  obtain ⟨z3, e3⟩ := hch 3 4 rfl
  obtain ⟨z4, e4⟩ := hd 4 rfl
  obtain ⟨z5, e5⟩ := hd 5 rfl
  obtain ⟨z6, e6⟩ := hd 6 rfl
  obtain ⟨z7, e7⟩ := hi 7 rfl
  obtain ⟨z8, e8⟩ := hi 8 rfl
  obtain ⟨z9, e9⟩ := hi 9 rfl
  obtain ⟨z10, e10⟩ := hd 10 rfl
  obtain ⟨z11, e11⟩ := hi 11 rfl
  obtain ⟨z12, e12⟩ := hi 12 rfl
  obtain ⟨z13, e13⟩ := hch 13 4 rfl
  obtain ⟨z14, e14⟩ := hd 14 rfl
  obtain ⟨z15, e15⟩ := hch 15 4 rfl
  obtain ⟨z16, e16⟩ := hch 16 4 rfl
  obtain ⟨z17, e17⟩ := hi 17 rfl
  obtain ⟨z18, e18⟩ := hi 18 rfl
  obtain ⟨z19, e19⟩ := hd 19 rfl
  obtain ⟨z20, e20⟩ := hd 20 rfl
  obtain ⟨z21, e21⟩ := hi 21 rfl
  obtain ⟨b0, f0⟩ := exists_flag items "ms-planted-solution"
  obtain ⟨b1, f1⟩ := exists_flag items "periodic-boundary-conditions"
  exact ⟨⟨z0, z1, z2, z3, z4, z5, z6, z7, z8, z9, b0, z10, z11, z12, z13, z14, z15, z16, z17, z18, z19, z20, b1, z21⟩, path, hl, hf,
    ⟨e0, e1, e2, e3, e4, e5, e6, e7, e8, e9, f0, e10, e11, e12, e13, e14, e15, e16, e17, e18, e19, e20, f1, e21⟩, hpath⟩

/-- C96: a partition made by `ffgen` is then solved by `hnco -A 0`.  Whatever the random numbers, `ffgen` succeeds; once its file
is at the path, a plain run of `hnco` on function 91 at this path, with complete search and neither budget nor goal, always ends; the two
sides of its solution differ as little as possible, and the opposite of this difference is reported. -/
theorem ffgen_then_hnco (h : FfgenCommand w argv items o path) (hw : w.writable path = true)
    (hN : Sim.Exactly w.num.normal N) (hU : Sim.Exactly w.num.uniform U) (hf : o.function = 91) (hn : 0 < o.bvSize)
    (hu : 0 < o.partUpperBound) :
    Sim.Post (ffgenMain w argv) (fun e => ∃ file, e = .exit 0 (some (path, file)) ∧ ∃ a : List Int, a.length = o.bvSize ∧
      (∀ v ∈ a, 1 ≤ v ∧ v ≤ o.partUpperBound) ∧
      ∀ (w : HncoWorld) (seen : InstanceFile Rat) (argv : List (List Char)) (items : List (OptDoc × Option (List Char)))
        (app : AppOptions Rat) (size : Int),
        w.file path = some seen → seen.Holds file → CommandLine hncoClass.help argv items → (∀ i ∈ items, FineItem w.opt i) →
        PlainRun w.opt items → Param w.opt items "function" (.int 91) → Param w.opt items "path" (.str path) →
        Param w.opt items "bv-size" (.int size) → 0 < size → ¬ Present items "minimize" → AppSettings w.opt items app →
        app.stopOnMaximum = false → app.target = none → app.budget ≤ 0 → Param w.opt items "algorithm" (.int 0) →
        (∃ e, HncoEnds w argv e) ∧ ∀ e, HncoEnds w argv e → ∃ res, e = .exit 0 (.results res) ∧
          res.solution.length = o.bvSize ∧ res.value = -|((side a res.solution true).sum : Rat) - (side a res.solution false).sum| ∧
          ∀ y : BV, y.length = o.bvSize → |(side a res.solution true).sum - (side a res.solution false).sum| ≤
            |(side a y true).sum - (side a y false).sum|) := by
  refine (ffgen_program_partition h hw hN hU hf hn hu).mono ?_
  rintro e ⟨file, rfl, a, h1, h2, h3⟩
  refine ⟨file, rfl, a, h1, h2, fun w seen argv items app size g1 g2 g3 g4 g5 g6 g7 g8 g9 g10 g11 g12 g13 g14 g15 => ?_⟩
  obtain ⟨f, k1, k2, k3, k4⟩ := h3 w seen argv items g1 g2 g3 g4 g6 g7 ⟨size, g9, g8⟩
  obtain ⟨q1, q2⟩ := hnco_complete g3 g4 g5 k1 (by omega)
    (value := fun x => -|((side a x true).sum : Rat) - (side a x false).sum|)
    (fun x hx => .inl ⟨g10, by
      obtain ⟨v, e1, e2⟩ := k4 x (by omega)
      rw [e1, e2]⟩) g11 (goal := none) (.inl ⟨g12, g13.symm⟩) g15 g14
  refine ⟨q1, fun e he => ?_⟩
  obtain ⟨res, xs, r1, r2, r3, r4, r5, r6⟩ := q2 e he
  obtain ⟨-, s1, s2, s3⟩ := r6 (by simp)
  refine ⟨res, by rw [r1, r2.exit.1 rfl], by omega, s2, fun y hy => ?_⟩
  have := s3 y (by omega)
  have h' : |((side a res.solution true).sum : Rat) - (side a res.solution false).sum| ≤
      |((side a y true).sum : Rat) - (side a y false).sum| := by linarith
  exact_mod_cast h'

/-! ## Maps -/

variable {m : MapgenOptions}

/-- C96: whatever the random numbers, `mapgen` succeeds for the maps which can be made, and the map which is loaded from its file,
as `hnco` does, is as asked for: it is total and has the right sizes, its test of surjectivity is right, and it is surjective if this has
been asked for. -/
theorem mapgen_program (h : MapgenCommand w argv items m path) (hw : w.writable path = true) (h1 : 1 ≤ m.kind) (h6 : m.kind ≤ 6)
    (hn : 0 < m.outputSize) (hlin : m.kind = 4 ∨ m.kind = 5 → 0 < m.inputSize ∧ (m.surjective = true → m.outputSize ≤ m.inputSize))
    (hts : m.kind = 6 → 1 < m.inputSize ∧ m.outputSize = m.inputSize) :
    Sim.Post (mapgenMain w argv) (fun e => ∃ tokens, e = .exit 0 (some (path, .archive tokens)) ∧
      ∃ map, loadMap m.kind tokens = ok map ∧ MapMade m.toMap m.outputSize map) := by
  have hfeas : m.toMap.Feasible m.outputSize := by
    refine ⟨h1, h6, rfl, fun hk => ?_, fun hk => ?_⟩
    · obtain ⟨g1, g2⟩ := hlin hk
      refine ⟨by simpa [MapgenOptions.toMap] using g1, fun hs => ?_⟩
      have := g2 hs
      simpa [MapgenOptions.toMap] using this
    · have := hts hk
      omega
  have hmade := makeMap_made m.toMap m.outputSize hn hfeas
  have hrand : makeMap m.toMap m.outputSize = makeRandomMap m.toMap m.outputSize := by
    unfold makeMap
    rw [assert_pos (decide_eq_true (show m.toMap.kind > 0 from h1)), assert_pos (by simpa using hn)]
    rfl
  rw [hrand, ← mapgen_then_load (K := Rat) m hn hfeas (fun hk => (hts hk).2.symm)] at hmade
  rw [mapgenMain_read h h1 h6 (fun hk => by have := hts hk; omega)]
  refine Sim.Post.genCatch (hmade.loads.bind fun tokens ht => ?_)
  rw [if_pos hw]
  exact Sim.Post.pure ⟨tokens, rfl, ht⟩

/-- C96: an unknown map ends the program with status 1 and without file. -/
theorem mapgen_unknown (h : MapgenCommand w argv items m path) (hk : m.kind < 1 ∨ 6 < m.kind) :
    Sim.Post (mapgenMain w argv) (fun e => e = .exit 1 none) := by
  obtain ⟨s, hparse, hset⟩ := options_read mapgenClass_mem w.opt false h.line h.fine
  have hf := h.fine
  obtain ⟨k1, e1, f1⟩ := read_size mapgenClass_mem hset hf (mapgenParam_ok 1 rfl) h.settings.kind
  obtain ⟨k2, e2, f2⟩ := read_size mapgenClass_mem hset hf (mapgenParam_ok 2 rfl) h.settings.inputSize
  obtain ⟨k3, e3, f3⟩ := read_size mapgenClass_mem hset hf (mapgenParam_ok 3 rfl) h.settings.outputSize
  obtain ⟨k4, e4, p4⟩ := get_int mapgenClass_mem hset hf (mapgenParam_ok 4 rfl)
  obtain ⟨k5, e5, p5⟩ := get_int mapgenClass_mem hset hf (mapgenParam_ok 5 rfl)
  unfold mapgenMain
  rw [hparse]
  refine Sim.Post.genCatch ?_
  unfold mapgenProgram
  rw [read_str mapgenClass_mem hset hf (mapgenParam_ok 0 rfl) h.path, e1, e2, e3, e4, e5]
  simp only [sim_lift_ok_bind]
  rw [if_pos (by omega)]
  exact Sim.Post.pure rfl

/-- C96: a linear or affine map cannot be surjective onto more bits than it takes: the program ends with status 1 and without
file. -/
theorem mapgen_refused (h : MapgenCommand w argv items m path) (hk : m.kind = 4 ∨ m.kind = 5) (hs : m.surjective = true)
    (hin : 0 < m.inputSize) (hlt : m.inputSize < m.outputSize) : Sim.Post (mapgenMain w argv) (fun e => e = .exit 1 none) := by
  rw [mapgenMain_read h (by omega) (by omega) (by omega)]
  refine genCatch_throw fun ds => ?_
  have hr := fun ds => linearRandom_refused m.outputSize m.inputSize hin hlt ds
  have hm : mapgen (K := Rat) m ds = .throw .runtimeError := by
    unfold mapgen
    rcases hk with hk | hk
    · simp only [hk, hs]
      change Sim.bind _ _ ds = _
      unfold Sim.bind
      rw [hr]
    · simp only [hk, hs]
      change Sim.bind (Sim.bind (linearRandom m.outputSize m.inputSize true) _) _ ds = _
      unfold Sim.bind
      rw [hr]
  rw [show ∀ F : List (Tok Rat) → Sim GenEnd, mapgen m >>= F = Sim.bind (mapgen m) F from fun _ => rfl]
  unfold Sim.bind
  rw [hm]

/-- C96: an unknown mode of transvection sequences ends the program with status 1 and without file. -/
theorem mapgen_unknown_mode (hl : CommandLine mapgenClass.help argv items) (hf : ∀ i ∈ items, FineItem w.opt i) {size length mode : Int}
    (h1 : ParamOf mapgenClass w.opt items "map" (.int 6)) (h2 : ParamOf mapgenClass w.opt items "input-size" (.int size)) (hsize : 0 < size)
    (h3 : ParamOf mapgenClass w.opt items "ts-length" (.int length)) (hlength : 0 ≤ length)
    (h4 : ParamOf mapgenClass w.opt items "ts-sampling-mode" (.int mode)) (hmode : mode < 0 ∨ 5 < mode) :
    Sim.Post (mapgenMain w argv) (fun e => e = .exit 1 none) := by
  obtain ⟨s, hparse, hset⟩ := options_read mapgenClass_mem w.opt false hl hf
  have e1 := read_int mapgenClass_mem hset hf (mapgenParam_ok 1 rfl) h1
  have e2 := read_int mapgenClass_mem hset hf (mapgenParam_ok 2 rfl) h2
  have e4 := read_int mapgenClass_mem hset hf (mapgenParam_ok 4 rfl) h3
  have e5 := read_int mapgenClass_mem hset hf (mapgenParam_ok 5 rfl) h4
  obtain ⟨k0, e0, -⟩ := get_str mapgenClass_mem hset hf (mapgenParam_ok 0 rfl)
  obtain ⟨k3, e3, -⟩ := get_int mapgenClass_mem hset hf (mapgenParam_ok 3 rfl)
  unfold mapgenMain
  rw [hparse]
  refine genCatch_throw fun ds => ?_
  unfold mapgenProgram
  rw [e0, e1, e2, e3, e4, e5]
  simp only [sim_lift_ok_bind]
  rw [if_neg (by omega), if_pos trivial, assert_pos (decide_eq_true hsize), assert_pos (decide_eq_true hlength)]
  simp only [sim_lift_ok_bind]
  have hno : samplingModeOf mode = none := by
    unfold samplingModeOf
    rw [if_neg (by omega), if_neg (by omega), if_neg (by omega), if_neg (by omega), if_neg (by omega), if_neg (by omega)]
  rw [hno]
  rfl

/-- C96 (negative part): a file which cannot be opened is not reported by `mapgen`: the program ends with an exception which is not
caught, whereas `ffgen` exits with status 1. -/
theorem mapgen_unwritable (h : MapgenCommand w argv items m path) (hw : w.writable path = false) (h1 : 1 ≤ m.kind) (h3 : m.kind ≤ 3)
    (hn : 0 < m.outputSize) : Sim.Post (mapgenMain w argv) (fun e => e = .terminated) := by
  have hp := mapgen_program (w := { w with writable := fun _ => true }) (path := path)
    (m := m) ⟨h.line, h.fine, h.settings, h.path⟩ rfl h1 (by omega) hn (by omega) (by omega)
  rw [mapgenMain_read (w := { w with writable := fun _ => true }) ⟨h.line, h.fine, h.settings, h.path⟩ h1 (by omega) (by omega)] at hp
  rw [mapgenMain_read h h1 (by omega) (by omega)]
  intro ds
  have := hp ds
  rw [show ∀ F : List (Tok Rat) → Sim GenEnd, mapgen m >>= F = Sim.bind (mapgen m) F from fun _ => rfl] at this ⊢
  unfold genCatch Sim.bind at this ⊢
  cases e : mapgen (K := Rat) m ds <;> simp_all [Pure.pure]

/-! ## Words -/

def ffgenFunctionDoc : OptDoc := ⟨some 'F', "function".toList, .value .int (some (.int 1))⟩

def upperBoundDoc : OptDoc := ⟨none, "part-upper-bound".toList, .value .int (some (.int 100))⟩

set_option maxRecDepth 100000 in
theorem ffgenDocs_mem : ∀ d ∈ [ffgenFunctionDoc, sizeDoc, pathDoc, upperBoundDoc], d ∈ ffgenClass.help := by decide +kernel

/-- The words of `ffgen -F k -s n -p path`. -/
def ffgenWords (k n : Nat) (path : List Char) : List (List Char) := ["-F".toList, showNat k, "-s".toList, showNat n, "-p".toList, path]

def ffgenItems (k n : Nat) (path : List Char) : List (OptDoc × Option (List Char)) :=
  [(ffgenFunctionDoc, some (showNat k)), (sizeDoc, some (showNat n)), (pathDoc, some path)]

theorem ffgen_line (k n : Nat) (path : List Char) : CommandLine ffgenClass.help (ffgenWords k n path) (ffgenItems k n path) := by
  refine .option (words := ["-F".toList, showNat k]) (.letterSeparate (c := 'F') (ffgenDocs_mem _ (by simp)) rfl) ?_
  refine .option (words := ["-s".toList, showNat n]) (.letterSeparate (c := 's') (ffgenDocs_mem _ (by simp)) rfl) ?_
  exact .option (words := ["-p".toList, path]) (.letterSeparate (c := 'p') (ffgenDocs_mem _ (by simp)) rfl) .done

theorem ffgen_fine (lib : OptLib) {k n : Nat} (hk : k < 2 ^ 31) (hn : n < 2 ^ 31) (path : List Char) :
    ∀ i ∈ ffgenItems k n path, FineItem lib i := by
  intro i hi
  simp only [ffgenItems, List.mem_cons, List.not_mem_nil, or_false] at hi
  rcases hi with rfl | rfl | rfl
  · exact .value rfl (means_nat lib hk)
  · exact .value rfl (means_nat lib hn)
  · exact .value rfl .string

/-- What the words mean. -/
theorem ffgen_words (w : GenWorld) {k n : Nat} (hk : k < 2 ^ 31) (hn : n < 2 ^ 31) (path : List Char) :
    ∃ o, FfgenCommand w (ffgenWords k n path) (ffgenItems k n path) o path ∧ o.function = k ∧ o.bvSize = n ∧ o.partUpperBound = 100 := by
  obtain ⟨o, path', h⟩ := ffgen_command (w := w) (ffgen_line k n path) (ffgen_fine w.opt hk hn path)
  have hfun : ParamOf ffgenClass w.opt (ffgenItems k n path) "function" (.int k) :=
    ⟨ffgenFunctionDoc, ffgenDocs_mem _ (by simp), rfl, _, _, rfl, .inl ⟨_, ⟨[], [(sizeDoc, some (showNat n)), (pathDoc, some path)], rfl,
      not_again (after := [sizeDoc, pathDoc]) rfl (by decide)⟩, means_nat _ hk⟩⟩
  have hsize : ParamOf ffgenClass w.opt (ffgenItems k n path) "bv-size" (.int n) :=
    ⟨sizeDoc, ffgenDocs_mem _ (by simp), rfl, _, _, rfl, .inl ⟨_, ⟨[(ffgenFunctionDoc, some (showNat k))], [(pathDoc, some path)], rfl,
      not_again (after := [pathDoc]) rfl (by decide)⟩, means_nat _ hn⟩⟩
  have hpath : ParamOf ffgenClass w.opt (ffgenItems k n path) "path" (.str path) :=
    ⟨pathDoc, ffgenDocs_mem _ (by simp), rfl, _, _, rfl, .inl ⟨_, ⟨[(ffgenFunctionDoc, some (showNat k)), (sizeDoc, some (showNat n))], [],
      rfl, by simp⟩, .string⟩⟩
  have hbound : ParamOf ffgenClass w.opt (ffgenItems k n path) "part-upper-bound" (.int 100) :=
    ⟨upperBoundDoc, ffgenDocs_mem _ (by simp), rfl, _, _, rfl, .inr ⟨by
      rintro ⟨i, hi, he⟩
      have : i.1 ∈ [ffgenFunctionDoc, sizeDoc, pathDoc] := List.mem_map_of_mem (f := Prod.fst) hi
      rw [he] at this
      revert this
      decide, rfl⟩⟩
  cases h.path.unique ffgenClass_mem hpath
  refine ⟨o, h, ?_, ?_, ?_⟩
  · obtain ⟨z, h1, _, h2⟩ := h.settings.function
    cases h1.unique ffgenClass_mem hfun
    have := h2 (by omega)
    omega
  · obtain ⟨z, h1, h2⟩ := h.settings.bvSize
    cases h1.unique ffgenClass_mem hsize
    omega
  · obtain ⟨z, h1, h2⟩ := h.settings.partUpperBound
    cases h1.unique ffgenClass_mem hbound
    omega

/-- The words of `hnco -A 0 -b 0 -F 91 -p path`. -/
def solveWords (path : List Char) : List (List Char) :=
  ["-A".toList, showNat 0, "-b".toList, showNat 0, "-F".toList, showNat 91, "-p".toList, path]

def solveItems (path : List Char) : List (OptDoc × Option (List Char)) :=
  [(algorithmDoc, some (showNat 0)), (budgetDoc, some (showNat 0)), (functionDoc, some (showNat 91)), (pathDoc, some path)]

/-- C96: `ffgen -F 91 -s n -p path`, then `hnco -A 0 -b 0 -F 91 -p path`: whatever the size and the random numbers, the first
program exits with status 0, and its file has `n` numbers from 1 to 100; the second program always ends, with status 0, and the two
sides of its solution differ as little as possible. -/
theorem partition_words (hw : w.writable path = true) (hN : Sim.Exactly w.num.normal N) (hU : Sim.Exactly w.num.uniform U) {n : Nat}
    (hn0 : 0 < n) (hn : n < 2 ^ 31) :
    Sim.Post (ffgenMain w (ffgenWords 91 n path)) (fun e => ∃ file, e = .exit 0 (some (path, file)) ∧
      ∃ a : List Int, a.length = n ∧ (∀ v ∈ a, 1 ≤ v ∧ v ≤ 100) ∧
        ∀ (w : HncoWorld) (seen : InstanceFile Rat), w.file path = some seen → seen.Holds file →
          (∃ e, HncoEnds w (solveWords path) e) ∧ ∀ e, HncoEnds w (solveWords path) e → ∃ res, e = .exit 0 (.results res) ∧
            res.solution.length = n ∧ res.value = -|((side a res.solution true).sum : Rat) - (side a res.solution false).sum| ∧
            ∀ y : BV, y.length = n → |(side a res.solution true).sum - (side a res.solution false).sum| ≤
              |(side a y true).sum - (side a y false).sum|) := by
  obtain ⟨o, h, h1, h2, h3⟩ := ffgen_words w (k := 91) (by norm_num) hn path
  refine (ffgen_then_hnco h hw hN hU h1 (by omega) (by omega)).mono ?_
  rintro e ⟨file, rfl, a, g1, g2, g3⟩
  rw [h2] at g1 g3
  rw [h3] at g2
  refine ⟨file, rfl, a, g1, g2, fun w seen k1 k2 => ?_⟩
  have hl : CommandLine hncoClass.help (solveWords path) (solveItems path) := by
    refine .option (words := ["-A".toList, showNat 0]) (.letterSeparate (c := 'A') (commandDocs_mem _ (by simp)) rfl) ?_
    refine .option (words := ["-b".toList, showNat 0]) (.letterSeparate (c := 'b') budgetDoc_mem rfl) ?_
    refine .option (words := ["-F".toList, showNat 91]) (.letterSeparate (c := 'F') (commandDocs_mem _ (by simp)) rfl) ?_
    exact .option (words := ["-p".toList, path]) (.letterSeparate (c := 'p') (otherDocs_mem _ (by simp)) rfl) .done
  have hf : ∀ i ∈ solveItems path, FineItem w.opt i := by
    intro i hi
    simp only [solveItems, List.mem_cons, List.not_mem_nil, or_false] at hi
    rcases hi with rfl | rfl | rfl | rfl
    · exact .value rfl (means_nat _ (by norm_num))
    · exact .value rfl (means_nat _ (by norm_num))
    · exact .value rfl (means_nat _ (by norm_num))
    · exact .value rfl .string
  have hnames : (solveItems path).map (fun i => i.1.name) = ["algorithm".toList, "budget".toList, "function".toList, "path".toList] := rfl
  have hno : ∀ name : String, name.toList ∉ ["algorithm".toList, "budget".toList, "function".toList, "path".toList] →
      ¬ Present (solveItems path) name := fun name h => not_present (by rw [hnames]; exact h)
  have halg : Param w.opt (solveItems path) "algorithm" (.int (0 : Nat)) :=
    param_given (d := algorithmDoc) (k := .int) (commandDocs_mem _ (by simp)) rfl rfl
      ⟨[], [(budgetDoc, some (showNat 0)), (functionDoc, some (showNat 91)), (pathDoc, some path)], rfl,
        not_again (after := [budgetDoc, functionDoc, pathDoc]) rfl (by decide)⟩ (means_nat _ (by norm_num))
  have hbudget : Param w.opt (solveItems path) "budget" (.int (0 : Nat)) :=
    param_given (d := budgetDoc) (k := .int) budgetDoc_mem rfl rfl
      ⟨[(algorithmDoc, some (showNat 0))], [(functionDoc, some (showNat 91)), (pathDoc, some path)], rfl,
        not_again (after := [functionDoc, pathDoc]) rfl (by decide)⟩ (means_nat _ (by norm_num))
  have hfun : Param w.opt (solveItems path) "function" (.int (91 : Nat)) :=
    param_given (d := functionDoc) (k := .int) (commandDocs_mem _ (by simp)) rfl rfl
      ⟨[(algorithmDoc, some (showNat 0)), (budgetDoc, some (showNat 0))], [(pathDoc, some path)], rfl,
        not_again (after := [pathDoc]) rfl (by decide)⟩ (means_nat _ (by norm_num))
  have hpath : Param w.opt (solveItems path) "path" (.str path) :=
    param_given (d := pathDoc) (k := .string) (otherDocs_mem _ (by simp)) rfl rfl
      ⟨[(algorithmDoc, some (showNat 0)), (budgetDoc, some (showNat 0)), (functionDoc, some (showNat 91))], [], rfl, by simp⟩ .string
  have hsize : Param w.opt (solveItems path) "bv-size" (.int 100) :=
    param_default (d := sizeDoc) (commandDocs_mem _ (by simp)) rfl rfl (hno _ (by decide))
  obtain ⟨_, _, ⟨app, _, happ⟩, _, _⟩ := hnco_options w.opt hl hf
  have hstop : app.stopOnMaximum = false := by rw [← Bool.not_eq_true, happ.stopOnMaximum]; exact hno _ (by decide)
  have htarget : app.target = none := by
    rcases happ.target with ⟨_, h⟩ | ⟨r, _, h⟩
    · exact h
    · exact absurd h (optional_absent hl.docs (show isOptional "target" "target" = true from optionals_ok 0 rfl) (hno _ (by decide)) r)
  have hb : app.budget = 0 := param_int_eq happ.budget hbudget
  obtain ⟨q1, q2⟩ := g3 w seen (solveWords path) (solveItems path) app 100 k1 k2 hl hf (plainRun_of_names hnames (by decide)) hfun hpath
    hsize (by norm_num) (hno _ (by decide)) happ hstop htarget (by rw [hb]) halg
  exact ⟨q1, q2⟩

/-! ## Examples -/

/-- A world where all files can be written. -/
def exampleGenWorld : GenWorld := ⟨exampleOptLib, exampleNumerics, fun _ => true⟩

theorem exampleNumerics_normal : Sim.Exactly exampleNumerics.normal (fun x => ∃ d : Nat, x = d) :=
  ⟨Sim.Post.draw.bind fun d _ => Sim.Post.pure ⟨d, rfl⟩, fun x ⟨d, hd⟩ => hd ▸ (Sim.Reaches.draw d).bind (Sim.Reaches.pure _)⟩

-- `ffgen -F 1 -s 3 -p f`, and the other functions with a size.
example {k : Nat} (_ : k ∈ [1, 60, 70, 90, 91, 160, 161, 162, 171]) : ∃ o items, FfgenCommand exampleGenWorld
    (ffgenWords k 3 "f".toList) items o "f".toList ∧ exampleGenWorld.writable "f".toList = true ∧ o.function = k ∧ 0 < o.bvSize := by
  obtain ⟨o, h, h1, h2, -⟩ := ffgen_words exampleGenWorld (k := k) (n := 3) (by simp_all; omega) (by norm_num) "f".toList
  exact ⟨o, _, h, rfl, h1, by omega⟩

theorem exampleNumerics_uniform : Sim.Exactly exampleNumerics.uniform (fun u => 0 ≤ u ∧ u < 1) := by
  refine ⟨Sim.Post.uniform, fun u ⟨h0, h1⟩ => ?_⟩
  have hnum : 0 ≤ u.num := Rat.num_nonneg.mpr h0
  have hlt : u.num.toNat < u.den := by
    have h2 : (u.num : Rat) < u.den := by
      have := Rat.num_div_den u
      have hd : (0 : Rat) < u.den := by exact_mod_cast u.den_pos
      rw [← this, div_lt_one hd] at h1
      exact h1
    have : u.num < u.den := by exact_mod_cast h2
    omega
  have h := Sim.Reaches.uniform hlt
  have e : ((u.num.toNat : Nat) : Rat) / (u.den : Rat) = u := by
    have : ((u.num.toNat : Nat) : Rat) = (u.num : Rat) := by
      rw [← Int.cast_natCast, Int.toNat_of_nonneg hnum]
    rw [this]
    exact Rat.num_div_den u
  rw [e] at h
  exact h

-- The hypotheses of `partition_words`.
example : exampleGenWorld.writable "f".toList = true ∧ Sim.Exactly exampleGenWorld.num.normal (fun x => ∃ d : Nat, x = d) ∧
    Sim.Exactly exampleGenWorld.num.uniform (fun u => 0 ≤ u ∧ u < 1) :=
  ⟨rfl, exampleNumerics_normal, exampleNumerics_uniform⟩

-- `ffgen -F 2 -s 3 -p f`: there is no such function.
example : ∃ o items, FfgenCommand exampleGenWorld (ffgenWords 2 3 "f".toList) items o "f".toList ∧
    o.function ∉ [1, 60, 70, 90, 91, 160, 161, 162, 171, 172, 190] := by
  obtain ⟨o, h, h1, -⟩ := ffgen_words exampleGenWorld (k := 2) (n := 3) (by norm_num) (by norm_num) "f".toList
  exact ⟨o, _, h, by rw [h1]; decide⟩

/-- The map of the default options of `mapgen`: a translation. -/
theorem mapgen_default (w : GenWorld) : MapgenCommand w [] [] ⟨1, 100, 100, false, 0, .unconstrained⟩ "map.txt".toList := by
  have hp : ∀ (d : OptDoc) (name : String) (k : OptKind) (x : OptValue), d ∈ mapgenClass.help → d.name = name.toList →
      d.kind = .value k (some x) → ParamOf mapgenClass w.opt [] name x :=
    fun d name k x h1 h2 h3 => ⟨d, h1, h2, k, _, h3, .inr ⟨by rintro ⟨i, hi, _⟩; simp at hi, rfl⟩⟩
  refine ⟨.done, by simp, ⟨⟨1, ?_, rfl⟩, ⟨100, ?_, rfl⟩, ⟨100, ?_, rfl⟩, ?_, by simp, by simp⟩, ?_⟩
  · exact hp ⟨some 'M', "map".toList, .value .int (some (.int 1))⟩ _ _ _ (by simp [mapgenClass, mapgenHelp]) rfl rfl
  · exact hp ⟨some 'x', "input-size".toList, .value .int (some (.int 100))⟩ _ _ _ (by simp [mapgenClass, mapgenHelp]) rfl rfl
  · exact hp ⟨some 'y', "output-size".toList, .value .int (some (.int 100))⟩ _ _ _ (by simp [mapgenClass, mapgenHelp]) rfl rfl
  · simp [Appears]
  · exact hp ⟨some 'p', "path".toList, .value .string (some (.str "map.txt".toList))⟩ _ _ _ (by simp [mapgenClass, mapgenHelp]) rfl rfl

attribute [local irreducible] mapgenMain in
-- Without any option, `mapgen` writes a translation of 100 bits.
example : Sim.Post (mapgenMain exampleGenWorld []) (fun e => ∃ tokens, e = .exit 0 (some ("map.txt".toList, .archive tokens)) ∧
    ∃ map, loadMap 1 tokens = ok map ∧ map.outputSize = 100 ∧ map.inputSize = 100) := by
  refine (mapgen_program (mapgen_default exampleGenWorld) rfl (by decide) (by decide) (by decide) (by decide) (by decide)).mono ?_
  rintro e ⟨tokens, h1, map, h2, h3⟩
  exact ⟨tokens, h1, map, h2, h3.output, h3.input⟩

end Hnco
