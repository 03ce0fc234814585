import Verif.App.GenMainSpec
import Verif.App.OptionReadLemmas
import Verif.App.MainProps

/-!
# The programs `ffgen` and `mapgen`: lemmas
-/

namespace Hnco

open Outcome

theorem ffgenClass_mem : ffgenClass ∈ optionClasses := by simp [optionClasses]
theorem mapgenClass_mem : mapgenClass ∈ optionClasses := by simp [optionClasses]

/-! ## Tables -/

/-- The parameters of `ffgen` which are read. -/
def ffgenParams : List (String × String × OptKind) := [
  ("function", "function", .int), ("bv-size", "bv_size", .int), ("stddev", "stddev", .double), ("lin-generator", "lin_generator", .int),
  ("lin-initial-weight", "lin_initial_weight", .double), ("lin-distance", "lin_distance", .double), ("lin-ratio", "lin_ratio", .double),
  ("nk-k", "nk_k", .int), ("ms-num-clauses", "ms_num_clauses", .int),
  ("ms-num-literals-per-clause", "ms_num_literals_per_clause", .int), ("ep-upper-bound", "ep_upper_bound", .double),
  ("part-upper-bound", "part_upper_bound", .int), ("walsh-num-features", "walsh_num_features", .int),
  ("walsh2-generator", "walsh2_generator", .int), ("walsh2-ising-alpha", "walsh2_ising_alpha", .double),
  ("nn1-generator", "nn1_generator", .int), ("nn2-generator", "nn2_generator", .int), ("nn2-num-rows", "nn2_num_rows", .int),
  ("nn2-num-columns", "nn2_num_columns", .int), ("coupling-constant", "coupling_constant", .double),
  ("field-constant", "field_constant", .double), ("sudoku-num-empty-cells", "sudoku_num_empty_cells", .int), ("path", "path", .string)]

/-- The flags of `ffgen`. -/
def ffgenFlagNames : List (String × String) := [("ms-planted-solution", "ms_planted_solution"),
  ("periodic-boundary-conditions", "periodic_boundary_conditions")]

/-- The parameters of `mapgen` which are read. -/
def mapgenParams : List (String × String × OptKind) := [("path", "path", .string), ("map", "map", .int),
  ("input-size", "input_size", .int), ("output-size", "output_size", .int), ("ts-length", "ts_length", .int),
  ("ts-sampling-mode", "ts_sampling_mode", .int)]

set_option maxRecDepth 100000 in
theorem ffgenParams_ok : (ffgenParams.all fun r => isParamIn ffgenClass r.1 r.2.1 r.2.2) = true := by decide +kernel

set_option maxRecDepth 100000 in
theorem ffgenFlags_ok : (ffgenFlagNames.all fun r => isFlagIn ffgenClass r.1 r.2) = true := by decide +kernel

set_option maxRecDepth 100000 in
theorem mapgenParams_ok : (mapgenParams.all fun r => isParamIn mapgenClass r.1 r.2.1 r.2.2) = true := by decide +kernel

set_option maxRecDepth 100000 in
theorem mapgenFlag_ok : isFlagIn mapgenClass "surjective" "surjective" = true := by decide +kernel

theorem ffgenParam_ok (i : Nat) {name member : String} {kind : OptKind} (h : ffgenParams[i]? = some (name, member, kind)) :
    isParamIn ffgenClass name member kind = true := List.all_eq_true.mp ffgenParams_ok _ (List.mem_of_getElem? h)

theorem ffgenFlag_ok (i : Nat) {name member : String} (h : ffgenFlagNames[i]? = some (name, member)) :
    isFlagIn ffgenClass name member = true := List.all_eq_true.mp ffgenFlags_ok _ (List.mem_of_getElem? h)

theorem mapgenParam_ok (i : Nat) {name member : String} {kind : OptKind} (h : mapgenParams[i]? = some (name, member, kind)) :
    isParamIn mapgenClass name member kind = true := List.all_eq_true.mp mapgenParams_ok _ (List.mem_of_getElem? h)

/-- The default values of integers are small. -/
def smallDefault (d : OptDoc) : Bool :=
  match d.kind with
  | .value _ (some (.int z)) => decide (z ≤ 2147483647)
  | _ => true

set_option maxRecDepth 100000 in
theorem smallDefaults : ((ffgenClass.help ++ mapgenClass.help).all smallDefault) = true := by decide +kernel

theorem size_small {lib : OptLib} {items : List (OptDoc × Option (List Char))} {name : String} {m : Nat}
    (h : SizeOption ffgenClass lib items name m) : m ≤ 2147483647 := by
  obtain ⟨k, ⟨d, hd, -, kd, df, hkd, hx⟩, hm⟩ := h
  have : k ≤ 2147483647 := by
    rcases hx with ⟨v, _, hmeans⟩ | ⟨_, hdf⟩
    · cases hmeans
      omega
    · have := List.all_eq_true.mp smallDefaults d (List.mem_append_left _ hd)
      subst hdf
      simpa [smallDefault, hkd] using this
  omega

/-! ## Reading -/

section
variable {c : OptClass} {lib : OptLib} {items : List (OptDoc × Option (List Char))} {s : OptState}

theorem read_int (hc : c ∈ optionClasses) (hs : Settings c lib items s) (hf : ∀ i ∈ items, FineItem lib i) {name member : String}
    (hk : isParamIn c name member .int = true) {z : Int} (hz : ParamOf c lib items name (.int z)) : c.int s member = ok z := by
  obtain ⟨y, h1, h2⟩ := get_int hc hs hf hk
  cases h2.unique hc hz
  exact h1

theorem read_double (hc : c ∈ optionClasses) (hs : Settings c lib items s) (hf : ∀ i ∈ items, FineItem lib i) {name member : String}
    (hk : isParamIn c name member .double = true) {z : Rat} (hz : ParamOf c lib items name (.double z)) : c.double s member = ok z := by
  obtain ⟨y, h1, h2⟩ := get_double hc hs hf hk
  cases h2.unique hc hz
  exact h1

theorem read_str (hc : c ∈ optionClasses) (hs : Settings c lib items s) (hf : ∀ i ∈ items, FineItem lib i) {name member : String}
    (hk : isParamIn c name member .string = true) {z : List Char} (hz : ParamOf c lib items name (.str z)) : c.str s member = ok z := by
  obtain ⟨y, h1, h2⟩ := get_str hc hs hf hk
  cases h2.unique hc hz
  exact h1

theorem read_size (hc : c ∈ optionClasses) (hs : Settings c lib items s) (hf : ∀ i ∈ items, FineItem lib i) {name member : String}
    (hk : isParamIn c name member .int = true) {m : Nat} (hz : SizeOption c lib items name m) :
    ∃ z : Int, c.int s member = ok z ∧ z.toNat = m := by
  obtain ⟨k, h1, h2⟩ := hz
  exact ⟨k, read_int hc hs hf hk h1, by omega⟩

theorem read_choice (hc : c ∈ optionClasses) (hs : Settings c lib items s) (hf : ∀ i ∈ items, FineItem lib i) {name member : String}
    (hk : isParamIn c name member .int = true) {other m : Nat} (hz : ChoiceOption c lib items name other m) :
    ∃ z : Int, c.int s member = ok z ∧ (if z < 0 then other else z.toNat) = m := by
  obtain ⟨k, h1, h2, h3⟩ := hz
  refine ⟨k, read_int hc hs hf hk h1, ?_⟩
  split
  · exact (h2 ‹_›).symm
  · have := h3 (by omega)
    omega

theorem read_flag (hc : c ∈ optionClasses) (hs : Settings c lib items s) (hdocs : ∀ i ∈ items, i.1 ∈ c.help) {name member : String}
    (hk : isFlagIn c name member = true) {b : Bool} (hb : b = true ↔ Appears items name) : s.raised member = b := by
  have := get_flag hc hs hdocs hk
  rw [← hb] at this
  cases b <;> simp_all

theorem ffgenOptionsOf_eq (hs : Settings ffgenClass lib items s) (hf : ∀ i ∈ items, FineItem lib i)
    (hdocs : ∀ i ∈ items, i.1 ∈ ffgenClass.help) {o : FfgenOptions Rat} (ho : FfgenSettings lib items o) : ffgenOptionsOf s = ok o := by
  have hi := fun i {name member} {m : Nat} (h : ffgenParams[i]? = some (name, member, .int)) (hz : SizeOption ffgenClass lib items name m) =>
    read_size ffgenClass_mem hs hf (ffgenParam_ok i h) hz
  have hch := fun i {name member} {other m : Nat} (h : ffgenParams[i]? = some (name, member, .int))
      (hz : ChoiceOption ffgenClass lib items name other m) => read_choice ffgenClass_mem hs hf (ffgenParam_ok i h) hz
  have hd := fun i {name member} {z : Rat} (h : ffgenParams[i]? = some (name, member, .double))
      (hz : ParamOf ffgenClass lib items name (.double z)) => read_double ffgenClass_mem hs hf (ffgenParam_ok i h) hz
  obtain ⟨z0, e0, f0⟩ := hch 0 rfl ho.function
  obtain ⟨z1, e1, f1⟩ := hi 1 rfl ho.bvSize
  obtain ⟨z3, e3, f3⟩ := hch 3 rfl ho.linGenerator
  obtain ⟨z7, e7, f7⟩ := hi 7 rfl ho.nkK
  obtain ⟨z8, e8, f8⟩ := hi 8 rfl ho.msNumClauses
  obtain ⟨z9, e9, f9⟩ := hi 9 rfl ho.msNumLiterals
  obtain ⟨z11, e11, f11⟩ := hi 11 rfl ho.partUpperBound
  obtain ⟨z12, e12, f12⟩ := hi 12 rfl ho.walshNumFeatures
  obtain ⟨z13, e13, f13⟩ := hch 13 rfl ho.walsh2Generator
  obtain ⟨z15, e15, f15⟩ := hch 15 rfl ho.nn1Generator
  obtain ⟨z16, e16, f16⟩ := hch 16 rfl ho.nn2Generator
  obtain ⟨z17, e17, f17⟩ := hi 17 rfl ho.nn2Rows
  obtain ⟨z18, e18, f18⟩ := hi 18 rfl ho.nn2Columns
  obtain ⟨z21, e21, f21⟩ := hi 21 rfl ho.sudokuEmptyCells
  have e2 := hd 2 rfl ho.stddev
  have e4 := hd 4 rfl ho.linInitialWeight
  have e5 := hd 5 rfl ho.linDistance
  have e6 := hd 6 rfl ho.linRatio
  have e10 := hd 10 rfl ho.epUpperBound
  have e14 := hd 14 rfl ho.walsh2Alpha
  have e19 := hd 19 rfl ho.couplingConstant
  have e20 := hd 20 rfl ho.fieldConstant
  have g0 := read_flag ffgenClass_mem hs hdocs (ffgenFlag_ok 0 rfl) ho.msPlanted
  have g1 := read_flag ffgenClass_mem hs hdocs (ffgenFlag_ok 1 rfl) ho.periodic
  unfold ffgenOptionsOf functionNumber generatorNumber
  simp only [e0, e1, e2, e3, e4, e5, e6, e7, e8, e9, e10, e11, e12, e13, e14, e15, e16, e17, e18, e19, e20, e21, ok_bind, f0, f1, f3, f7,
    f8, f9, f11, f12, f13, f15, f16, f17, f18, f21, g0, g1]

end

/-! ## The programs -/

theorem Sim.Post.genCatch {m : Sim GenEnd} {P : GenEnd → Prop} (h : Sim.Post m P) : Sim.Post (genCatch m) P := by
  intro ds
  have := h ds
  unfold Hnco.genCatch
  cases hm : m ds <;> simp_all

theorem genCatch_throw {m : Sim GenEnd} (h : ∀ ds, m ds = .throw .runtimeError) : Sim.Post (genCatch m) (fun e => e = .exit 1 none) := by
  intro ds
  unfold genCatch
  rw [h ds]

section
variable {w : GenWorld} {argv : List (List Char)} {items : List (OptDoc × Option (List Char))}

/-- The program, once its options are read. -/
theorem ffgenMain_read {o : FfgenOptions Rat} {path : List Char} (h : FfgenCommand w argv items o path) :
    ∃ size : Int, ParamOf ffgenClass w.opt items "bv-size" (.int size) ∧ ffgenMain w argv = genCatch (if o.function = 70 ∧ o.msPlanted = true ∧ size < 0 then pure .terminated
      else do
        let file ← ffgen w.num o
        if w.writable path then pure (.exit 0 (some (path, file))) else Sim.lift (.throw .runtimeError)) := by
  obtain ⟨s, hparse, hset⟩ := options_read ffgenClass_mem w.opt false h.line h.fine
  obtain ⟨size, hsize, -⟩ := h.settings.bvSize
  refine ⟨size, hsize, ?_⟩
  unfold ffgenMain
  rw [hparse]
  simp only
  congr 1
  unfold ffgenProgram
  rw [read_str ffgenClass_mem hset h.fine (ffgenParam_ok 22 rfl) h.path, read_int ffgenClass_mem hset h.fine (ffgenParam_ok 1 rfl) hsize,
    ffgenOptionsOf_eq hset h.fine h.line.docs h.settings]
  rfl

/-- The program, when the file is made whatever the draws. -/
theorem ffgenMain_post {o : FfgenOptions Rat} {path : List Char} (h : FfgenCommand w argv items o path) {P : FfgenFile Rat → Prop}
    (hp : Sim.Post (ffgen w.num o) P) (hsize : o.function = 70 → o.msPlanted = true → 0 < o.bvSize) :
    (w.writable path = true → Sim.Post (ffgenMain w argv) (fun e => ∃ file, P file ∧ e = .exit 0 (some (path, file)))) ∧
      (w.writable path = false → Sim.Post (ffgenMain w argv) (fun e => e = .exit 1 none)) := by
  obtain ⟨size, h1, h2⟩ := ffgenMain_read h
  have hno : ¬ (o.function = 70 ∧ o.msPlanted = true ∧ size < 0) := by
    rintro ⟨h3, h4, h5⟩
    obtain ⟨k, h6, h7⟩ := h.settings.bvSize
    cases h1.unique ffgenClass_mem h6
    have := hsize h3 h4
    omega
  rw [h2, if_neg hno]
  refine ⟨fun hw => Sim.Post.genCatch (hp.bind fun file hfile => ?_), fun hw ds => ?_⟩
  · rw [if_pos hw]
    exact Sim.Post.pure ⟨file, hfile, rfl⟩
  · have := hp ds
    rw [show ∀ F : FfgenFile Rat → Sim GenEnd, ffgen w.num o >>= F = Sim.bind (ffgen w.num o) F from fun _ => rfl]
    unfold genCatch Sim.bind
    cases e : ffgen w.num o ds <;> simp_all [Sim.lift]

/-- The program, when the function is refused whatever the draws. -/
theorem ffgenMain_throw {o : FfgenOptions Rat} {path : List Char} (h : FfgenCommand w argv items o path)
    (ht : ∀ ds, ffgen w.num o ds = .throw .runtimeError) (hno : o.function ≠ 70) :
    Sim.Post (ffgenMain w argv) (fun e => e = .exit 1 none) := by
  obtain ⟨size, h1, h2⟩ := ffgenMain_read h
  rw [h2, if_neg (fun h => hno h.1)]
  refine genCatch_throw fun ds => ?_
  rw [show ∀ F : FfgenFile Rat → Sim GenEnd, ffgen w.num o >>= F = Sim.bind (ffgen w.num o) F from fun _ => rfl]
  unfold Sim.bind
  rw [ht ds]

theorem exists_size {c : OptClass} (hc : c ∈ optionClasses) {lib : OptLib} {s : OptState} (hs : Settings c lib items s)
    (hf : ∀ i ∈ items, FineItem lib i) {name member : String} (hk : isParamIn c name member .int = true) :
    ∃ m, SizeOption c lib items name m := by
  obtain ⟨y, -, h⟩ := get_int hc hs hf hk
  exact ⟨y.toNat, y, h, by omega⟩

theorem exists_choice {c : OptClass} (hc : c ∈ optionClasses) {lib : OptLib} {s : OptState} (hs : Settings c lib items s)
    (hf : ∀ i ∈ items, FineItem lib i) {name member : String} (hk : isParamIn c name member .int = true) (other : Nat) :
    ∃ m, ChoiceOption c lib items name other m := by
  obtain ⟨y, -, h⟩ := get_int hc hs hf hk
  by_cases hy : y < 0
  · exact ⟨other, y, h, fun _ => rfl, fun _ => by omega⟩
  · exact ⟨y.toNat, y, h, fun _ => by omega, fun _ => by omega⟩

theorem exists_double {c : OptClass} (hc : c ∈ optionClasses) {lib : OptLib} {s : OptState} (hs : Settings c lib items s)
    (hf : ∀ i ∈ items, FineItem lib i) {name member : String} (hk : isParamIn c name member .double = true) :
    ∃ r, ParamOf c lib items name (.double r) := by
  obtain ⟨y, -, h⟩ := get_double hc hs hf hk
  exact ⟨y, h⟩

theorem exists_flag (items : List (OptDoc × Option (List Char))) (name : String) : ∃ b : Bool, b = true ↔ Appears items name := by
  by_cases h : Appears items name
  · exact ⟨true, by simp [h]⟩
  · exact ⟨false, by simp [h]⟩

/-- The program `mapgen`, once its options are read. -/
theorem mapgenMain_read {o : MapgenOptions} {path : List Char} (h : MapgenCommand w argv items o path) (h1 : 1 ≤ o.kind)
    (h6 : o.kind ≤ 6) (hin : o.kind = 6 → 0 < o.inputSize) :
    mapgenMain w argv = genCatch (do
      let tokens ← mapgen (K := Rat) o
      if w.writable path then pure (.exit 0 (some (path, .archive tokens))) else pure .terminated) := by
  obtain ⟨s, hparse, hset⟩ := options_read mapgenClass_mem w.opt false h.line h.fine
  have hf := h.fine
  obtain ⟨k1, e1, f1⟩ := read_size mapgenClass_mem hset hf (mapgenParam_ok 1 rfl) h.settings.kind
  obtain ⟨k2, e2, f2⟩ := read_size mapgenClass_mem hset hf (mapgenParam_ok 2 rfl) h.settings.inputSize
  obtain ⟨k3, e3, f3⟩ := read_size mapgenClass_mem hset hf (mapgenParam_ok 3 rfl) h.settings.outputSize
  obtain ⟨k4, e4, p4⟩ := get_int mapgenClass_mem hset hf (mapgenParam_ok 4 rfl)
  obtain ⟨k5, e5, p5⟩ := get_int mapgenClass_mem hset hf (mapgenParam_ok 5 rfl)
  have g := read_flag mapgenClass_mem hset h.line.docs mapgenFlag_ok h.settings.surjective
  unfold mapgenMain
  rw [hparse]
  simp only
  congr 1
  unfold mapgenProgram
  rw [read_str mapgenClass_mem hset hf (mapgenParam_ok 0 rfl) h.path, e1, e2, e3, e4, e5]
  simp only [sim_lift_ok_bind, f1, f2, f3, g]
  rw [if_neg (by omega)]
  by_cases hk : o.kind = 6
  · rw [if_pos (by omega)]
    have t1 := h.settings.tsLength hk
    have t2 := h.settings.tsMode hk
    cases p4.unique mapgenClass_mem t1
    cases p5.unique mapgenClass_mem t2
    have := hin hk
    rw [assert_pos (decide_eq_true (by omega)), assert_pos (decide_eq_true (by omega))]
    simp only [sim_lift_ok_bind]
    obtain ⟨kind, inp, out, sur, len, mode⟩ := o
    cases mode <;> rfl
  · rw [if_neg (by omega)]
    have : ∀ F : List (Tok Rat) → Sim GenEnd, (mapgen (K := Rat) ⟨o.kind, o.inputSize, o.outputSize, o.surjective, k4.toNat, .unconstrained⟩ >>= F) =
        (mapgen (K := Rat) o >>= F) := by
      intro F
      congr 1
      unfold mapgen
      obtain h | h | h | h | h : o.kind = 1 ∨ o.kind = 2 ∨ o.kind = 3 ∨ o.kind = 4 ∨ o.kind = 5 := by omega
      all_goals simp only [h]
    exact this _

theorem Sim.Post.loads {α β : Type} {m : Sim α} {f : α → Outcome β} {P : β → Prop} (h : Sim.Post (do
      let x ← m
      Sim.lift (f x)) P) : Sim.Post m (fun x => ∃ y, f x = ok y ∧ P y) := by
  intro ds
  have := h ds
  rw [show ∀ F : α → Sim β, m >>= F = Sim.bind m F from fun _ => rfl] at this
  unfold Sim.bind at this
  cases e : m ds with
  | ok x rest =>
    rw [e] at this
    simp only [Sim.lift] at this
    cases e2 : f x <;> simp_all
  | throw e => simp_all
  | ub => simp_all
  | out => simp_all

end

/-! ## What `hnco` finds -/

theorem hncoFinds_of_loads {written : FfgenFile Rat} {path : List Char} {k n : Nat} {value : BV → Rat → Prop}
    (h : ∀ (lib : FactoryLib Rat) (fo : FactoryOptions) (file : InstanceFile Rat), fo.function = k → file.Holds written →
      ∃ v : BV → Rat, LoadsWith lib fo file n v ∧ ∀ x : BV, x.length = n → value x (v x)) : HncoFinds written path k n value := by
  intro w seen argv items h1 h2 hl hf hk hpath hsize
  obtain ⟨size, hsize0, hsize⟩ := hsize
  obtain ⟨_, _, _, ⟨fo, _, hfo⟩, _⟩ := hnco_options w.opt hl hf
  have hfn : fo.function = k := by
    obtain ⟨k', h3, _, h4⟩ := hfo.function
    have : k' = k := param_int_eq h3 hk
    subst this
    have := h4 (by omega)
    omega
  have hbv : fo.bvSize = size := param_int_eq hfo.bvSize hsize
  obtain ⟨v, ⟨f, e1, e2, e3, e4⟩, e5⟩ := h w.fn fo seen hfn h2
  refine ⟨f, ⟨fo, seen, hfo, ?_, fun _ => ⟨path, hpath, h1⟩⟩, e2, e3, fun x hx => ⟨v x, e4 x hx, e5 x hx⟩⟩
  have := e1 fo.bvSize (by omega)
  simpa using this

end Hnco
