import Verif.Examples.AppModel
import Verif.Examples.Lemmas
import Verif.App.MainCommandProps
import Verif.Representation.AdapterProps

/-!
# Properties of the examples with a command line (C105)
-/

namespace Hnco.Examples

open Outcome

variable {w : HncoWorld} {argv : List (List Char)} {items : List (OptDoc × Option (List Char))}

/-! ## Applications -/

/-- A plain run of an application with any factories, from the command line to the exit status. -/
theorem app_program {F : AppFactories} (hl : CommandLine hncoClass.help argv items) (hf : ∀ i ∈ items, FineItem w.opt i)
    (hp : PlainRun w.opt items) {f : Fn Rat}
    (hfun : ∀ s, Settings hncoClass w.opt items s → F.makeFunction s = ok (.plain f)) (hn : 0 < f.size) {value : BV → Rat}
    (hval : ∀ x : BV, x.length = f.size → (¬ Present items "minimize" ∧ f.eval x = ok (value x)) ∨
      (Present items "minimize" ∧ f.eval x = ok (-value x)))
    {app : AppOptions Rat} (happ : AppSettings w.opt items app) {goal : Option Rat}
    (hgoal : (app.stopOnMaximum = false ∧ goal = app.target) ∨
      (app.stopOnMaximum = true ∧ ¬ Present items "minimize" ∧ f.hasMax = true ∧ ∃ M, f.maximum = ok M ∧ goal = some M))
    {ao : AlgOptions} {plan : Plan} (hacc : Accepted w.alg ao f.size plan) (h30 : ao.algorithm ≠ 30)
    (halg : ∀ s m, Settings hncoClass w.opt items s → makeAlgorithm w.alg ao f.size = .own (ok m) →
      F.makeAlgorithm s f.size = ok (some m)) {e : ProgramEnd} (he : AppEnds w F argv e) :
    ∃ res h xs, e = .exit res.exit (.results res) ∧ HncoEnd app f.size goal value ao.numIterations plan h xs res := by
  obtain ⟨s, hparse, hset⟩ := options_read (c := hncoClass) (by simp [optionClasses]) w.opt false hl hf
  obtain ⟨app', happ1, happ2⟩ := appOptionsOf_settings hset hf hl.docs
  have := happ2.unique hl.docs happ
  subst this
  obtain ⟨fn, hfn, hsize, heval, hmax, hgoal'⟩ := hnco_fn (s := s) (flag_raised hset hl.docs
    (show isFlag "minimize" "minimize" = true from flags_ok 12 rfl)) hval hgoal
  obtain ⟨st, hst⟩ := makeController_ok (v := w.event) hmax
  rw [← hsize] at hacc
  obtain ⟨m, hm, hrun⟩ := hnco_run hacc h30 heval hst
  rw [hgoal', hsize] at hrun
  have hready := appPrepare_ready hset hf hl.docs hp (hfun s hset) hn hfn happ1 hst
    (by rw [hsize]; exact halg s m hset (by rw [← hsize]; exact hm))
  obtain ⟨res, h1, h, xs, h2⟩ := ends_ready (P := fun res => ∃ h xs, HncoEnd app' f.size goal value ao.numIterations plan h xs res)
    hparse rfl hready (fun fuel => (hrun fuel).mono (fun r hr x hx => by
      obtain ⟨res, h, xs, h1, h2⟩ := hr.2 x hx
      exact ⟨res, h1, h, xs, h2⟩)) he
  exact ⟨res, h, xs, h1, h2⟩

/-! ## A function -/

theorem eightOnes_eval {x : BV} (hx : x.length = 8) : eightOnes.eval x = ok ((x.count true : Nat) : Rat) := by
  change (countOnes 8 x >>= fun c => ok (c : Rat)) = _
  rw [countOnes_eq hx, ok_bind]
  simp

theorem myFunction_made {s : OptState} (hs : Settings hncoClass w.opt items s) (hf : ∀ i ∈ items, FineItem w.opt i) {n : Int}
    (hsize : Param w.opt items "bv-size" (.int n)) :
    (myFunctionFactories w).makeFunction s = if n ≤ 0 then .throw .runtimeError else ok (.plain eightOnes) := by
  obtain ⟨fo, h4, h5⟩ := factoryOptionsOf_settings hs hf
  have hn : fo.bvSize = n := param_int_eq h5.bvSize hsize
  have hint : s.int "bv_size" = ok n := by
    unfold factoryOptionsOf at h4
    obtain ⟨_, _, h4⟩ := bind_eq_ok.mp h4
    obtain ⟨b, hb, h4⟩ := bind_eq_ok.mp h4
    obtain ⟨_, _, h4⟩ := bind_eq_ok.mp h4
    obtain ⟨_, _, h4⟩ := bind_eq_ok.mp h4
    obtain ⟨_, _, h4⟩ := bind_eq_ok.mp h4
    obtain ⟨_, _, h4⟩ := bind_eq_ok.mp h4
    cases h4
    rw [hb, ← hn]
  change (s.int "bv_size" >>= fun n => if n ≤ 0 then .throw .runtimeError else ok (Made.plain eightOnes)) = _
  rw [hint, ok_bind]

/-- C105: a plain run of the program `cli-my-function`, without `--stop-on-maximum`.  Its results are those of `hnco` for the function
which counts the ones of a vector with 8 bits, whatever the size and the function which are given in the command line, provided that
the size is positive. -/
theorem myFunction_program (hl : CommandLine hncoClass.help argv items) (hf : ∀ i ∈ items, FineItem w.opt i)
    (hp : PlainRun w.opt items) {n : Int} (hsize : Param w.opt items "bv-size" (.int n)) (hn : 0 < n)
    (hmin : ¬ Present items "minimize") (hstop : ¬ Present items "stop-on-maximum")
    {app : AppOptions Rat} (happ : AppSettings w.opt items app) {ao : AlgOptions} (hao : AlgorithmSettings w.opt items ao)
    {plan : Plan} (hacc : Accepted w.alg ao 8 plan) (h30 : ao.algorithm ≠ 30) {e : ProgramEnd}
    (he : AppEnds w (myFunctionFactories w) argv e) :
    ∃ res h xs, e = .exit res.exit (.results res) ∧
      HncoEnd app 8 app.target (fun x => ((x.count true : Nat) : Rat)) ao.numIterations plan h xs res := by
  refine app_program hl hf hp (f := eightOnes) (fun s hs => ?_) (by decide) (fun x hx => .inl ⟨hmin, eightOnes_eval hx⟩) happ
    (.inl ⟨?_, rfl⟩) hacc h30 (fun s m hs hm => ?_) he
  · rw [myFunction_made hs hf hsize, if_neg (by omega)]
  · rw [← Bool.not_eq_true, happ.stopOnMaximum]
    exact hstop
  · obtain ⟨ao', hao1, hao2⟩ := algOptionsOf_settings hs hf hl.docs
    have := hao2.unique hl.docs hao
    subst this
    exact hncoMakeAlgorithm_own hp.incremental hao1 hao2 hm

/-- C105 (negative part): with `--stop-on-maximum`, the program `cli-my-function` prints an error message only, although 8 is the
maximum. -/
theorem myFunction_maximum (hl : CommandLine hncoClass.help argv items) (hf : ∀ i ∈ items, FineItem w.opt i)
    (hp : PlainFunction w.opt items) {n : Int} (hsize : Param w.opt items "bv-size" (.int n)) (hn : 0 < n)
    (hstop : Present items "stop-on-maximum") (e : ProgramEnd) :
    AppEnds w (myFunctionFactories w) argv e ↔ e = .exit 1 .message := by
  obtain ⟨s, hparse, hset⟩ := options_read (c := hncoClass) (by simp [optionClasses]) w.opt false hl hf
  obtain ⟨app, happ1, happ2⟩ := appOptionsOf_settings hset hf hl.docs
  refine ends_throw hparse (x := .runtimeError) (fun ds => ?_) e
  rw [appPrepare_steps hset hf hl.docs hp (f := eightOnes) (by rw [myFunction_made hset hf hsize, if_neg (by omega)]) (by decide)]
  unfold appSteps
  rw [happ1, sim_bind_ok]
  have : makeController app (if s.raised "minimize" = true then opposite eightOnes else eightOnes) w.event = .throw .runtimeError := by
    unfold makeController
    rw [if_pos (happ2.stopOnMaximum.mpr hstop)]
    split <;> rfl
  rw [this]
  rfl

/-- C105 (negative part): the program `cli-my-function` prints an error message only if `--bv-size` is not positive, although the size of its
function is always 8. -/
theorem myFunction_size (hl : CommandLine hncoClass.help argv items) (hf : ∀ i ∈ items, FineItem w.opt i)
    (hp : PlainFunction w.opt items) {n : Int} (hsize : Param w.opt items "bv-size" (.int n)) (hn : n ≤ 0) (e : ProgramEnd) :
    AppEnds w (myFunctionFactories w) argv e ↔ e = .exit 1 .message := by
  obtain ⟨s, hparse, hset⟩ := options_read (c := hncoClass) (by simp [optionClasses]) w.opt false hl hf
  refine ends_throw hparse (x := .runtimeError) (fun ds => ?_) e
  rw [appPrepare_function hset hf hl.docs hp, myFunction_made hset hf hsize, if_pos hn]
  rfl

/-! ## An algorithm -/

theorem myAlgorithm_made {n : Nat} {s : OptState} {m : MadeAlgorithm Rat}
    (hm : makeAlgorithm w.alg { algorithm := 10, numIterations := 0 } n = .own (ok m)) :
    (myAlgorithmFactories w).makeAlgorithm s n = ok (some m) := by
  have h : myAlgorithm (K := Rat) 0 n = ok m := by
    have : makeAlgorithm (K := Rat) w.alg { algorithm := 10, numIterations := 0 } n = .own (myAlgorithm 0 n) := rfl
    rw [this] at hm
    exact FactoryResult.own.inj hm
  change (myAlgorithm 0 n >>= fun m => ok (some m)) = _
  rw [h, ok_bind]

/-- C105: a plain run of the program `cli-my-algorithm`, whatever the algorithm and the number of iterations which are given in the
command line: its results are right, and, unless the goal is reached, it makes the number of evaluations which the budget
allows, and its solution is the best one. -/
theorem myAlgorithm_program (hl : CommandLine hncoClass.help argv items) (hf : ∀ i ∈ items, FineItem w.opt i)
    (hp : PlainRun w.opt items) {f : Fn Rat} (hask : AsksFor w items f) (hn : 0 < f.size) {value : BV → Rat}
    (hval : ∀ x : BV, x.length = f.size → (¬ Present items "minimize" ∧ f.eval x = ok (value x)) ∨
      (Present items "minimize" ∧ f.eval x = ok (-value x)))
    {app : AppOptions Rat} (happ : AppSettings w.opt items app) {goal : Option Rat}
    (hgoal : (app.stopOnMaximum = false ∧ goal = app.target) ∨
      (app.stopOnMaximum = true ∧ ¬ Present items "minimize" ∧ f.hasMax = true ∧ ∃ M, f.maximum = ok M ∧ goal = some M))
    {e : ProgramEnd} (he : AppEnds w (myAlgorithmFactories w) argv e) :
    ∃ res h xs, e = .exit res.exit (.results res) ∧ HncoEnd app f.size goal value 0 (.sequential 1) h xs res ∧
      ((∀ t, goal = some t → ∀ x ∈ h, value x < t) → app.budget > 0 ∧
        (app.cache = false → (res.total : Int) = app.budget) ∧ res.solution ∈ h ∧ ∀ y ∈ h, value y ≤ value res.solution) := by
  obtain ⟨res, h, xs, h1, h2⟩ := app_program (F := myAlgorithmFactories w) hl hf hp (fun s hs => hncoFunction_asked hs hf hask) hn hval
    happ hgoal (ao := { algorithm := 10, numIterations := 0 }) (.randomSearch rfl hn) (by decide)
    (fun s m _ hm => myAlgorithm_made hm) he
  refine ⟨res, h, xs, h1, h2, fun hno => ?_⟩
  obtain ⟨h3, h4⟩ := h2.usesUp le_rfl rfl hno
  have hne : h ≠ [] := by
    rintro rfl
    have hxs : xs = [] := by rw [h2.seen]; split <;> rfl
    subst hxs
    split at h4 <;> simp at h4 <;> omega
  obtain ⟨done, late, h5, h6, h7⟩ := h2.solution hno
  have h8 : late = [] := List.length_eq_zero_iff.mp (Nat.lt_one_iff.mp h6)
  subst h8
  rw [List.append_nil] at h5
  subst h5
  refine ⟨h3, fun hc => ?_, h7.resolve_left hne⟩
  rw [if_neg (by simp [hc])] at h4
  rw [h2.reported.total, h2.seen, hc]
  exact h4

/-- C105: without budget and goal, the program `cli-my-algorithm` has no end. -/
theorem myAlgorithm_endless (hl : CommandLine hncoClass.help argv items) (hf : ∀ i ∈ items, FineItem w.opt i)
    (hp : PlainRun w.opt items) {f : Fn Rat} (hask : AsksFor w items f) (hn : 0 < f.size)
    (hval : ∀ x : BV, x.length = f.size → ∃ v, f.eval x = ok v)
    {app : AppOptions Rat} (happ : AppSettings w.opt items app) (hstop : app.stopOnMaximum = false) (htarget : app.target = none)
    (hbudget : app.budget ≤ 0) (e : ProgramEnd) : ¬ AppEnds w (myAlgorithmFactories w) argv e := by
  intro he
  have hex : ∀ x : BV, ∃ v, x.length = f.size → (¬ Present items "minimize" ∧ f.eval x = ok v) ∨
      (Present items "minimize" ∧ f.eval x = ok (-v)) := by
    intro x
    by_cases hx : x.length = f.size
    · obtain ⟨v, hv⟩ := hval x hx
      by_cases hm : Present items "minimize"
      · exact ⟨-v, fun _ => .inr ⟨hm, by rw [hv, neg_neg]⟩⟩
      · exact ⟨v, fun _ => .inl ⟨hm, hv⟩⟩
    · exact ⟨0, fun h => absurd h hx⟩
  choose value hvalue using hex
  obtain ⟨res, h, xs, -, -, h3⟩ := myAlgorithm_program hl hf hp hask hn hvalue happ (.inl ⟨hstop, rfl⟩) he
  have := (h3 (fun t ht => by rw [htarget] at ht; cases ht)).1
  omega

/-! ## A function with variables of all types -/

/-- The representation of real numbers. -/
def madeFloat : DyadicFloat Rat := ⟨[1 / 2, 1 / 4, 1 / 8, 1 / 16, 1 / 32, 1 / 64, 1 / 128, 1 / 256], -2, 4⟩

/-- The representation of integers. -/
def madeInteger : DyadicInteger := ⟨32, 8, 8, 0, 255⟩

/-- The representations of categories. -/
def madeCategorical (n : Nat) : LinearCategorical := ⟨n, 2, 3, [[true, false, true], [false, true, true]]⟩

/-- All the representations. -/
def madeReps : UniversalReps Rat where
  numBooleans := 2
  integers := [madeInteger, madeInteger]
  floats := [madeFloat, madeFloat]
  complexes := [(madeFloat, madeFloat), (madeFloat, madeFloat)]
  categoricals := [madeCategorical 4, madeCategorical 3]
  permutations := [⟨3, 4⟩, ⟨5, 5⟩]

theorem madeInteger_eq : dyadicExact 32 (Nat.clog 2) 0 255 = ok madeInteger := by decide +kernel

theorem madeFloat_eq : floatWithSize (-2 : Rat) 2 8 = ok madeFloat := by decide +kernel

theorem madeCategorical_eq : linearCategoricalNew 4 = ok (madeCategorical 4) ∧ linearCategoricalNew 3 = ok (madeCategorical 3) := by
  decide +kernel

theorem madePermutation_eq : permutationRepNew (Nat.clog 2) 3 2 = ok ⟨3, 4⟩ ∧ permutationRepNew (Nat.clog 2) 5 2 = ok ⟨5, 5⟩ := by
  decide +kernel

theorem universalReps_eq : universalReps (Nat.clog 2) = ok madeReps := by
  unfold universalReps
  rw [madeInteger_eq, ok_bind, ok_bind, madeFloat_eq, ok_bind, madeCategorical_eq.1, ok_bind, madeCategorical_eq.2, ok_bind,
    madePermutation_eq.1, ok_bind, madePermutation_eq.2, ok_bind]
  rfl

theorem madeInteger_constructed : madeInteger.Constructed 32 (Nat.clog 2) :=
  .inr (.inl ⟨0, 255, by decide, by decide, madeInteger_eq⟩)

theorem madeReps_constructed : madeReps.Constructed (Nat.clog 2) where
  integers := by
    intro rep h
    simp only [madeReps, List.mem_cons, List.not_mem_nil, or_false, or_self] at h
    subst h
    exact madeInteger_constructed
  floats := by
    intro rep h
    simp only [madeReps, List.mem_cons, List.not_mem_nil, or_false, or_self] at h
    subst h
    exact ⟨_, _, _, madeFloat_eq⟩
  complexes := by
    intro rep h
    simp only [madeReps, List.mem_cons, List.not_mem_nil, or_false, or_self] at h
    subst h
    exact ⟨⟨_, _, _, madeFloat_eq⟩, ⟨_, _, _, madeFloat_eq⟩⟩
  categoricals := by
    intro rep h
    simp only [madeReps, List.mem_cons, List.not_mem_nil, or_false] at h
    rcases h with rfl | rfl
    · exact ⟨4, by decide, by decide, madeCategorical_eq.1⟩
    · exact ⟨3, by decide, by decide, madeCategorical_eq.2⟩
  permutations := by
    intro rep h
    simp only [madeReps, List.mem_cons, List.not_mem_nil, or_false] at h
    rcases h with rfl | rfl
    · exact ⟨by decide, 3, 2, madePermutation_eq.1⟩
    · exact ⟨by decide, 5, 2, madePermutation_eq.2⟩

theorem madeReps_size : madeReps.sizes.sum = 109 := by decide +kernel

theorem decoded_get {D : Type} {reps : List (Rep D)} {bv : BV} {base : Nat} {values : List D} (h : DecodedFrom reps bv base values)
    {i : Nat} {rep : Rep D} (hi : reps[i]? = some rep) :
    ∃ v, vget values i = ok v ∧ rep.unpack (sliceOf bv (sliceStart base (reps.map Rep.size) i) rep.size) 0 = ok v := by
  obtain ⟨v, h1, h2⟩ := h.2 i rep hi
  exact ⟨v, by unfold vget; rw [h1], h2⟩

theorem madeInteger_range {x : BV} (hx : x.length = 8) {v : Int} (h : madeInteger.rep.unpack x 0 = ok v) : 0 ≤ v ∧ v ≤ 255 := by
  obtain ⟨u, h1, h2, h3, _⟩ := dyadicUnpack_spec (w := 32) (by decide) madeInteger_constructed (bv := x) (start := 0)
    (by rw [hx]; decide)
  change dyadicUnpack madeInteger x 0 = ok v at h
  rw [h1] at h
  cases h
  exact ⟨h2, h3⟩

theorem oneIf_le (p : Prop) [Decidable p] : oneIf p ≤ 1 := by
  unfold oneIf
  split <;> norm_num

/-- The polynomial has no rational root. -/
theorem cubic_root {z : Rat × Rat} : (z.1 * z.1 - z.2 * z.2 + z.1 + 1, z.1 * z.2 + z.2 * z.1 + z.2) ≠ ((0, 0) : Rat × Rat) := by
  intro h
  obtain ⟨a, b⟩ := z
  simp only [Prod.mk.injEq] at h
  obtain ⟨h1, h2⟩ := h
  have h3 : b * (2 * a + 1) = 0 := by linarith
  rcases mul_eq_zero.mp h3 with h | h
  · subst h
    nlinarith [sq_nonneg (2 * a + 1)]
  · have ha : a = -1 / 2 := by linarith
    subst ha
    have hb : (2 * b) * (2 * b) = 3 := by linarith
    have : IsSquare ((3 : Nat) : Rat) := ⟨2 * b, by exact_mod_cast hb.symm⟩
    rw [Rat.isSquare_natCast_iff] at this
    obtain ⟨k, hk⟩ := this
    have : k < 2 := by nlinarith
    interval_cases k <;> omega

/-- What the adapter unpacks from a vector of 109 bits. -/
structure Unpacked (v : UniversalVars Rat) : Prop where
  booleans : v.booleans.length = 2
  integers : ∃ a b, vget v.integers 0 = ok a ∧ vget v.integers 1 = ok b ∧ 0 ≤ a ∧ a ≤ 255 ∧ 0 ≤ b ∧ b ≤ 255
  floats : ∃ a b, vget v.floats 0 = ok a ∧ vget v.floats 1 = ok b
  complexes : ∃ a b, vget v.complexes 0 = ok a ∧ vget v.complexes 1 = ok b
  categoricals : ∃ a b, vget v.categoricals 0 = ok a ∧ vget v.categoricals 1 = ok b
  permutations : ∃ p q, vget v.permutations 0 = ok p ∧ vget v.permutations 1 = ok q ∧ p.length = 3 ∧ q.length = 5

theorem universal_unpacked {vars : UniversalVars Rat} (hv : vars.Matches madeReps) {bv : BV} (hb : bv.length = 109) :
    Sim.Post (universalUnpack madeReps vars bv) Unpacked := by
  refine (universalUnpack_spec madeReps_constructed hv (by rw [hb, madeReps_size])).mono fun out ⟨h1, h2, h3, h4, h5, h6, h7⟩ => ?_
  have hp : ∀ (i n : Nat) (rep : PermutationRep) (start : Nat), permutationRepNew (Nat.clog 2) n 2 = ok rep → rep.elementSize ≤ 64 →
      start + rep.size ≤ 109 → ∀ p, Sim.Reaches (permutationUnpack rep (sliceOf bv start rep.size) 0) p → p.length = n := by
    intro i n rep start hr h64 hs p hreach
    have hpost := permutationUnpack_valid hr h64 (bv := sliceOf bv start rep.size) (start := 0)
      (by rw [sliceOf_length (by omega)]; omega)
    obtain ⟨ds, hd⟩ := hreach
    have := hpost (ds ++ [])
    rw [hd] at this
    simpa using this.1.length_eq
  constructor
  · rw [h1, sliceOf_length (by rw [hb]; decide)]
    rfl
  · obtain ⟨a, ha, ha'⟩ := decoded_get h2 (i := 0) rfl
    obtain ⟨b, hb1, hb'⟩ := decoded_get h2 (i := 1) rfl
    have r1 := madeInteger_range (sliceOf_length (by rw [hb]; decide +kernel)) ha'
    have r2 := madeInteger_range (sliceOf_length (by rw [hb]; decide +kernel)) hb'
    exact ⟨a, b, ha, hb1, r1.1, r1.2, r2.1, r2.2⟩
  · obtain ⟨a, ha, _⟩ := decoded_get h3 (i := 0) rfl
    obtain ⟨b, hb, _⟩ := decoded_get h3 (i := 1) rfl
    exact ⟨a, b, ha, hb⟩
  · obtain ⟨a, ha, _⟩ := decoded_get h4 (i := 0) rfl
    obtain ⟨b, hb, _⟩ := decoded_get h4 (i := 1) rfl
    exact ⟨a, b, ha, hb⟩
  · obtain ⟨a, ha, _⟩ := decoded_get h5 (i := 0) rfl
    obtain ⟨b, hb, _⟩ := decoded_get h5 (i := 1) rfl
    exact ⟨a, b, ha, hb⟩
  · obtain ⟨p, p1, p2⟩ := h7 0 ⟨3, 4⟩ rfl
    obtain ⟨q, q1, q2⟩ := h7 1 ⟨5, 5⟩ rfl
    exact ⟨p, q, by unfold vget; rw [p1], by unfold vget; rw [q1],
      hp 0 3 _ _ madePermutation_eq.1 (by decide) (by decide +kernel) p p2,
      hp 1 5 _ _ madePermutation_eq.2 (by decide) (by decide +kernel) q q2⟩

theorem checked_small {z : Int} (h1 : -1000000 ≤ z) (h2 : z ≤ 1000000) : checked 32 z = ok z :=
  checked_ok ⟨by norm_num; omega, by norm_num; omega⟩

theorem universalFunction_less {cabs : Rat × Rat → Rat} (hcabs : ∀ z, 0 ≤ cabs z) (hpos : ∀ z, z ≠ (0, 0) → 0 < cabs z)
    {v : UniversalVars Rat} (h : Unpacked v) : ∃ y, universalFunction cabs v = ok y ∧ y < 10 := by
  obtain ⟨a, b, ha, hb, a1, a2, b1, b2⟩ := h.integers
  obtain ⟨f, g, hf, hg⟩ := h.floats
  obtain ⟨z, u, hz, hu⟩ := h.complexes
  obtain ⟨c, d, hc, hd⟩ := h.categoricals
  obtain ⟨p, q, hp, hq, lp, lq⟩ := h.permutations
  obtain ⟨p0, p1, p2, rfl⟩ := List.length_eq_three.mp lp
  obtain ⟨q0, q1, q2, q3, q4, rfl⟩ : ∃ q0 q1 q2 q3 q4, q = [q0, q1, q2, q3, q4] := by
    match q, lq with
    | [q0, q1, q2, q3, q4], _ => exact ⟨q0, q1, q2, q3, q4, rfl⟩
  have sa : a * a ≤ 65025 := by nlinarith
  have sb : b * b ≤ 65025 := by nlinarith
  have sa' : 0 ≤ a * a := mul_self_nonneg a
  have sb' : 0 ≤ b * b := mul_self_nonneg b
  unfold universalFunction
  rw [ha, ok_bind, hb, ok_bind, checked_small (by omega) (by omega), ok_bind, checked_small (by omega) (by omega), ok_bind,
    checked_small (by omega) (by omega), ok_bind, checked_small (by omega) (by omega), ok_bind, hf, ok_bind, hg, ok_bind, hz, ok_bind,
    hu, ok_bind, hc, ok_bind, hd, ok_bind, hp, ok_bind]
  rw [show vget [p0, p1, p2] 0 = ok p0 from rfl, ok_bind, show vget [p0, p1, p2] 1 = ok p1 from rfl, ok_bind,
    show vget [p0, p1, p2] 2 = ok p2 from rfl, ok_bind, hq, ok_bind]
  refine ⟨_, rfl, ?_⟩
  have hw : (bvHammingWeight v.booleans : Rat) ≤ 2 := by
    rw [bvHammingWeight_eq]
    have := List.count_le_length (a := true) (l := v.booleans)
    rw [h.booleans] at this
    exact_mod_cast this
  linarith [abs_nonneg ((a * a + b * b - 2500 : Int) : Rat), sq_nonneg (f - 1 / 2), sq_nonneg (g - 1 / 2), hpos _ (cubic_root (z := z)),
    hcabs (u.1 * u.1 - u.2 * u.2 + 1, u.1 * u.2 + u.2 * u.1), oneIf_le (c = 3), oneIf_le (d = 2), oneIf_le (p0 > p1), oneIf_le (p1 > p2),
    oneIf_le (q0 < q1), oneIf_le (q1 < q2), oneIf_le (q2 < q3), oneIf_le (q3 < q4)]

/-- C105: the function of `cli-universal-function` has 109 bits.  All of its evaluations are defined and give a value less than 10,
provided that `std::abs` is positive for complex numbers other than zero. -/
theorem universal_less {ceilLog2 : Nat → Nat} (hlog : ∀ m, ceilLog2 m = Nat.clog 2 m) {cabs : Rat × Rat → Rat}
    (hcabs : ∀ z, 0 ≤ cabs z) (hpos : ∀ z, z ≠ (0, 0) → 0 < cabs z) :
    ∃ r, universalReps ceilLog2 = ok r ∧ r.bvSize = ok 109 ∧ universalStart.Matches r ∧ ∀ vars : UniversalVars Rat, vars.Matches r →
      ∀ bv : BV, bv.length = 109 → Sim.Post (universalEvaluate cabs r vars bv) (fun v => v < 10) := by
  have hl : ceilLog2 = Nat.clog 2 := funext hlog
  subst hl
  refine ⟨madeReps, universalReps_eq, by rw [universal_bvSize, madeReps_size], ⟨rfl, rfl, rfl, rfl, rfl, rfl⟩, fun vars hv bv hb => ?_⟩
  exact Sim.Post.bind (universal_unpacked hv hb) fun v h => by
    obtain ⟨y, h1, h2⟩ := universalFunction_less hcabs hpos h
    exact Sim.Post.lift ⟨y, h1, h2⟩

/-! ## Examples -/

/-- The command line `-b k`. -/
theorem budget_line (k : Nat) : CommandLine hncoClass.help ["-b".toList, showNat k] [(budgetDoc, some (showNat k))] :=
  .option (words := ["-b".toList, showNat k]) (rest := []) (.letterSeparate (c := 'b') budgetDoc_mem rfl) .done

theorem budget_fine {k : Nat} (hk : k < 2 ^ 31) : ∀ i ∈ [(budgetDoc, some (showNat k))], FineItem w.opt i := by
  intro i hi
  rw [List.mem_singleton] at hi
  subst hi
  exact .value rfl (means_nat _ hk)

theorem budget_absent {k : Nat} {name : String} (h : name.toList ≠ "budget".toList) :
    ¬ Present [(budgetDoc, some (showNat k))] name := not_present (by
  change name.toList ∉ ["budget".toList]
  simpa using h)

theorem budget_settings {k : Nat} (hk : k < 2 ^ 31) : ∃ app ao, AppSettings w.opt [(budgetDoc, some (showNat k))] app ∧
    AlgorithmSettings w.opt [(budgetDoc, some (showNat k))] ao ∧ app.budget = k ∧ app.cache = false ∧ app.stopOnMaximum = false ∧
    app.target = none ∧ ao.algorithm = 100 ∧ ao.neighborhood = 0 := by
  have hl := budget_line k
  obtain ⟨_, _, ⟨app, _, happ⟩, _, ⟨ao, _, hao⟩⟩ := hnco_options w.opt hl (budget_fine hk)
  refine ⟨app, ao, happ, hao, ?_, ?_, ?_, ?_, ?_, ?_⟩
  · exact param_int_eq happ.budget (param_given (d := budgetDoc) (k := .int) budgetDoc_mem rfl rfl ⟨[], [], rfl, by simp⟩
      (means_nat _ hk))
  · rw [← Bool.not_eq_true, happ.cache]; exact budget_absent (by decide)
  · rw [← Bool.not_eq_true, happ.stopOnMaximum]; exact budget_absent (by decide)
  · rcases happ.target with ⟨_, h⟩ | ⟨r, _, h⟩
    · exact h
    · exact absurd h (optional_absent hl.docs (show isOptional "target" "target" = true from optionals_ok 0 rfl)
        (budget_absent (by decide)) r)
  · exact param_int_eq hao.algorithm
      (param_default (d := algorithmDoc) (commandDocs_mem _ (by simp)) rfl rfl (budget_absent (by decide)))
  · exact param_int_eq hao.neighborhood
      (param_default (d := neighborhoodDoc) (otherDocs_mem _ (by simp)) rfl rfl (budget_absent (by decide)))

theorem budget_size {k : Nat} : Param w.opt [(budgetDoc, some (showNat k))] "bv-size" (.int (100 : Nat)) :=
  param_default (d := sizeDoc) (commandDocs_mem _ (by simp)) rfl rfl (budget_absent (by decide))

theorem budget_plain {k : Nat} : PlainRun w.opt [(budgetDoc, some (showNat k))] :=
  plainRun_of_names (names := ["budget".toList]) rfl (by decide)

/-- C105: `cli-my-algorithm -b k` reports a best vector with 100 bits out of exactly `k` evaluations, and its exit status is 0. -/
theorem myAlgorithm_budget {k : Nat} (hk0 : 0 < k) (hk : k < 2 ^ 31) {e : ProgramEnd}
    (he : AppEnds w (myAlgorithmFactories w) ["-b".toList, showNat k] e) :
    ∃ (res : AppResult Rat) (xs : List BV), e = .exit 0 (.results res) ∧ res.total = k ∧ xs.length = k ∧ (∀ x ∈ xs, x.length = 100) ∧ res.solution ∈ xs ∧
      res.value = (res.solution.count true : Nat) ∧ ∀ x ∈ xs, x.count true ≤ res.solution.count true := by
  obtain ⟨app, ao, happ, _, h1, h2, h3, h4, _, _⟩ := budget_settings (w := w) hk
  obtain ⟨res, h, xs, rfl, hend, hall⟩ := myAlgorithm_program (budget_line k) (budget_fine hk) budget_plain
    (asks_default (budget_line k) (budget_fine hk) (budget_absent (by decide)) (by decide) budget_size)
    (show 0 < (oneMaxReal (K := Rat) 100).size by decide) (value := fun x => ((x.count true : Nat) : Rat))
    (fun x _ => .inl ⟨budget_absent (by decide), by simp [oneMaxReal, bvHammingWeight_eq]⟩) happ (.inl ⟨h3, rfl⟩) he
  obtain ⟨_, h6, h7, h8⟩ := hall (fun t ht => by rw [h4] at ht; cases ht)
  have hxs : xs = h := by rw [hend.seen, h2]; rfl
  subst hxs
  have htot : res.total = k := by
    have := h6 h2
    rw [h1] at this
    exact_mod_cast this
  refine ⟨res, xs, by rw [hend.reported.exit.1 h4], htot, by rw [← hend.reported.total, htot], hend.sizes, h7, ?_, ?_⟩
  · exact (hend.value rfl (List.ne_nil_of_mem h7)).2
  · intro x hx
    exact_mod_cast h8 x hx

/-- C105 (negative part): `cli-my-algorithm -b 0` has no end. -/
theorem myAlgorithm_no_budget (e : ProgramEnd) : ¬ AppEnds w (myAlgorithmFactories w) ["-b".toList, showNat 0] e := by
  obtain ⟨app, ao, happ, _, h1, h2, h3, h4, _, _⟩ := budget_settings (w := w) (k := 0) (by decide)
  exact myAlgorithm_endless (budget_line 0) (budget_fine (by decide)) budget_plain
    (asks_default (budget_line 0) (budget_fine (by decide)) (budget_absent (by decide)) (by decide) budget_size)
    (show 0 < (oneMaxReal (K := Rat) 100).size by decide) (fun x _ => ⟨_, rfl⟩) happ h3 h4 (by rw [h1]; simp) e

-- `cli-my-function -b 7` makes 7 evaluations of vectors with 8 bits.
example {e : ProgramEnd} (he : AppEnds w (myFunctionFactories w) ["-b".toList, showNat 7] e) :
    ∃ (res : AppResult Rat) (xs : List BV), e = .exit 0 (.results res) ∧ res.total = xs.length ∧ xs.length ≤ 7 ∧ ∀ x ∈ xs, x.length = 8 := by
  obtain ⟨app, ao, happ, hao, h1, h2, _, h4, h5, h6⟩ := budget_settings (w := w) (k := 7) (by decide)
  obtain ⟨res, h, xs, rfl, hend⟩ := myFunction_program (budget_line 7) (budget_fine (by decide)) budget_plain budget_size (by decide)
    (budget_absent (by decide)) (budget_absent (by decide)) happ hao (.randomLocalSearch h5 (.inl ⟨.inl h6, by decide⟩))
    (by rw [h5]; decide) he
  have hxs : xs = h := by rw [hend.seen, h2]; rfl
  subst hxs
  refine ⟨res, xs, by rw [hend.reported.exit.1 h4], hend.reported.total, ?_, hend.sizes⟩
  have := hend.budget (by rw [h1]; decide)
  rw [h1] at this
  exact_mod_cast this

-- `cli-my-function -A 10 -s 2 -b 3 --stop-on-maximum` prints a message only.
example (e : ProgramEnd) : AppEnds w (myFunctionFactories w) (oneMaxWords 10 2 3) e ↔ e = .exit 1 .message := by
  obtain ⟨app, ao, hcmd⟩ := oneMax_command w (a := 10) (n := 2) (b := 3) (by omega) (by omega) (by omega) (by omega)
  obtain ⟨_, _, _, ⟨fo, _, hfo⟩, _⟩ := hnco_options w.opt (oneMax_line 10 2 3) (oneMax_fine w.opt (by decide) (by decide) (by decide))
  exact myFunction_maximum (oneMax_line 10 2 3) (oneMax_fine w.opt (by decide) (by decide) (by decide)) hcmd.plain.toPlainFunction
    (n := 2) (param_given (d := sizeDoc) (k := .int) (commandDocs_mem _ (by simp)) rfl rfl
      ⟨[(algorithmDoc, some (showNat 10))], [(budgetDoc, some (showNat 3)), (stopDoc, none)], rfl,
        not_again (after := [budgetDoc, stopDoc]) rfl (by decide)⟩ (means_nat _ (n := 2) (by decide)))
    (by decide) (hcmd.appSettings.stopOnMaximum.mp hcmd.stop) e

-- `cli-my-function -s 0` prints a message only.
example (e : ProgramEnd) : AppEnds w (myFunctionFactories w) ["-s".toList, showNat 0] e ↔ e = .exit 1 .message :=
  myFunction_size (items := [(sizeDoc, some (showNat 0))])
    (.option (words := ["-s".toList, showNat 0]) (rest := []) (.letterSeparate (c := 's') (commandDocs_mem _ (by simp)) rfl) .done)
    (by
      intro i hi
      rw [List.mem_singleton] at hi
      subst hi
      exact .value rfl (means_nat _ (n := 0) (by decide)))
    (plainFunction_of_names rfl (by decide))
    (param_given (d := sizeDoc) (k := .int) (commandDocs_mem _ (by simp)) rfl rfl ⟨[], [], rfl, by simp⟩
      (means_nat _ (n := 0) (by decide))) (by decide) e

-- `cli-my-algorithm -b 1` has an end.
example : ∃ e, AppEnds exampleWorld (myAlgorithmFactories exampleWorld) ["-b".toList, showNat 1] e := by
  obtain ⟨app, ao, happ, _, h1, h2, h3, h4, _, _⟩ := budget_settings (w := exampleWorld) (k := 1) (by decide)
  have hl := budget_line 1
  have hf := budget_fine (w := exampleWorld) (k := 1) (by decide)
  obtain ⟨s, hparse, hset⟩ := options_read (c := hncoClass) (by simp [optionClasses]) exampleWorld.opt false hl hf
  obtain ⟨app', happ1, happ2⟩ := appOptionsOf_settings hset hf hl.docs
  have := happ2.unique hl.docs happ
  subst this
  have hc : app' = ⟨1, false, false, false, none, false, false⟩ := by
    have h5 : app'.cacheBudget = false := by rw [← Bool.not_eq_true, happ2.cacheBudget]; exact budget_absent (by decide)
    have h6 : app'.concreteSolution = false := by rw [← Bool.not_eq_true, happ2.concreteSolution]; exact budget_absent (by decide)
    have h7 : app'.printDescription = false := by rw [← Bool.not_eq_true, happ2.printDescription]; exact budget_absent (by decide)
    cases app'
    simp only at h1 h2 h3 h4 h5 h6 h7
    subst h1 h2 h3 h4 h5 h6 h7
    rfl
  subst hc
  have hfn : (if s.raised "minimize" = true then opposite (oneMaxReal (K := Rat) 100) else oneMaxReal 100) = oneMaxReal 100 := by
    rw [if_neg]
    rw [flag_raised hset hl.docs (show isFlag "minimize" "minimize" = true from flags_ok 12 rfl)]
    exact budget_absent (by decide)
  obtain ⟨m, hm, hrun⟩ := hnco_run (lib := exampleWorld.alg) (ao := { algorithm := 10, numIterations := 0 })
    (fn := oneMaxReal (K := Rat) 100) (v := exampleWorld.event) (.randomSearch rfl (by decide)) (by decide) (fun _ _ => rfl)
    (o := ⟨1, false, false, false, none, false, false⟩) rfl
  have hready := appPrepare_ready (F := myAlgorithmFactories exampleWorld) hset hf hl.docs budget_plain
    (hncoFunction_asked hset hf (asks_default hl hf (budget_absent (by decide)) (by decide) budget_size)) (by decide) hfn happ1 rfl
    (myAlgorithm_made hm)
  refine ends_of_run hparse hready (fuel := 3) (ds := List.range 200) ?_ (fun r rest hr => ?_)
  · have hm' : makeAlgorithm (K := Rat) exampleWorld.alg { algorithm := 10, numIterations := 0 } 100 =
      .own (makeRandomSearch { algorithm := 10, numIterations := 0 } 100) := rfl
    change makeAlgorithm exampleWorld.alg _ 100 = _ at hm
    rw [hm'] at hm
    simp only [makeRandomSearch, algorithmNew, Outcome.made, FactoryResult.own.injEq] at hm
    cases hm
    decide +kernel
  · have := hrun 3 (List.range 200)
    rw [hr] at this
    exact this.1

/-- The bits of a number, the least significant one first. -/
def bitsOf (size k : Nat) : BV := (List.range size).map (fun i => k.testBit i)

/-- The integers 30 and 40, the numbers 1/2 and 1/2, the complex numbers -1/2 + 55/64 i and i, categories 3 and 2, and the permutations
with elements in decreasing order and in increasing order. -/
def goodVector : BV := [true, true] ++ bitsOf 8 30 ++ bitsOf 8 40 ++ (bitsOf 8 160).reverse ++ (bitsOf 8 160).reverse ++
  (bitsOf 8 96).reverse ++ (bitsOf 8 183).reverse ++ (bitsOf 8 128).reverse ++ (bitsOf 8 192).reverse ++ [false, false, true] ++
  [false, true, false] ++ bitsOf 4 2 ++ bitsOf 4 1 ++ bitsOf 4 0 ++ bitsOf 5 0 ++ bitsOf 5 1 ++ bitsOf 5 2 ++ bitsOf 5 3 ++ bitsOf 5 4

-- A vector the value of which is 10 minus the modulus of 47 / 4096.
example : (match universalEvaluate (fun z => |z.1| + |z.2|) madeReps universalStart goodVector (List.replicate 40 0) with
    | .ok v _ => some v
    | _ => none) = some (10 - 47 / 4096) := by decide +kernel

end Hnco.Examples
