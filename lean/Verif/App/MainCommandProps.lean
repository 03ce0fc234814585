import Verif.App.MainProps

/-!
# Command lines of the program `hnco`, from their words to the exit status (C94)
-/

namespace Hnco

open Outcome

variable {w : HncoWorld} {lib : OptLib} {argv : List (List Char)} {items : List (OptDoc × Option (List Char))}

/-! ## Options -/

def algorithmDoc : OptDoc := ⟨some 'A', "algorithm".toList, .value .int (some (.int 100))⟩

def functionDoc : OptDoc := ⟨some 'F', "function".toList, .value .int (some (.int 0))⟩

def sizeDoc : OptDoc := ⟨some 's', "bv-size".toList, .value .int (some (.int 100))⟩

def stopDoc : OptDoc := ⟨none, "stop-on-maximum".toList, .flag⟩

def threadsDoc : OptDoc := ⟨none, "num-threads".toList, .value .int (some (.int 1))⟩

def mapDoc : OptDoc := ⟨some 'M', "map".toList, .value .int (some (.int 0))⟩

def iterationsDoc : OptDoc := ⟨some 'i', "num-iterations".toList, .value .int (some (.int 0))⟩

set_option maxRecDepth 100000 in
theorem commandDocs_mem : ∀ d ∈ [algorithmDoc, functionDoc, sizeDoc, stopDoc, threadsDoc, mapDoc, iterationsDoc], d ∈ hncoClass.help := by
  decide +kernel

theorem means_nat (lib : OptLib) {n : Nat} (h : n < 2 ^ 31) : Means lib .int (showNat n) (.int n) := by
  have hr : IntRead (showNat n) ((digitsValue (showNat n) : Nat) : Int) := by
    have := intRead_digits (rest := []) (showNat_ne_nil n) (showNat_digits n) (by simp)
    simpa using this
  rw [showNat_value] at hr
  exact .int hr (by omega) (by omega)

theorem param_given {d : OptDoc} {name : String} {k : OptKind} {default : Option OptValue} {x : OptValue} {v : List Char}
    (hd : d ∈ hncoClass.help) (hn : d.name = name.toList) (hk : d.kind = .value k default) (hv : LastArgument items d v)
    (hm : Means lib k v x) : Param lib items name x :=
  ⟨d, hd, hn, k, default, hk, .inl ⟨v, hv, hm⟩⟩

theorem param_default {d : OptDoc} {name : String} {k : OptKind} {x : OptValue} (hd : d ∈ hncoClass.help) (hn : d.name = name.toList)
    (hk : d.kind = .value k (some x)) (hv : ¬ Present items name) : Param lib items name x :=
  ⟨d, hd, hn, k, _, hk, .inr ⟨fun ⟨i, hi, he⟩ => hv ⟨i, hi, by rw [he, hn]⟩, rfl⟩⟩

theorem not_present {name : String} (h : name.toList ∉ items.map (fun i => i.1.name)) : ¬ Present items name := by
  rintro ⟨i, hi, hn⟩
  exact h (List.mem_map.mpr ⟨i, hi, hn⟩)

theorem not_again {after : List OptDoc} {d : OptDoc} (h : items.map Prod.fst = after) (h' : ∀ e ∈ after, e ≠ d) :
    ∀ i ∈ items, i.1 ≠ d :=
  fun _ hi => h' _ (h ▸ List.mem_map_of_mem hi)

/-- A command line which has none of the options which make it other than plain. -/
theorem plainRun_of_names {names : List (List Char)} (hnames : items.map (fun i => i.1.name) = names)
    (h : ∀ name ∈ ["print-default-parameters", "num-threads", "map", "prior-noise", "parsed-modifier", "additive-gaussian-noise",
      "load-solution", "incremental-evaluation", "restart"] ++ showingOptions, name.toList ∉ names) : PlainRun lib items := by
  have h' : ∀ name ∈ ["print-default-parameters", "num-threads", "map", "prior-noise", "parsed-modifier", "additive-gaussian-noise",
      "load-solution", "incremental-evaluation", "restart"] ++ showingOptions, ¬ Present items name :=
    fun name hn => not_present (by rw [hnames]; exact h name hn)
  refine ⟨⟨h' _ (by simp), ?_, ⟨0, le_rfl, ?_⟩, ?_⟩, ?_, h' _ (by simp), h' _ (by simp)⟩
  · exact param_default (d := threadsDoc) (commandDocs_mem _ (by simp)) rfl rfl (h' _ (by simp))
  · exact param_default (d := mapDoc) (commandDocs_mem _ (by simp)) rfl rfl (h' _ (by simp))
  · intro name hn
    refine h' _ ?_
    simp only [List.mem_cons, List.not_mem_nil, or_false] at hn
    rcases hn with rfl | rfl | rfl <;> simp
  · intro name hn
    refine h' _ ?_
    rcases List.mem_cons.mp hn with rfl | hn
    · simp
    · exact List.mem_append_right _ hn

/-! ## OneMax -/

/-- The words of `hnco -A a -s n -b b --stop-on-maximum`. -/
def oneMaxWords (a n b : Nat) : List (List Char) :=
  ["-A".toList, showNat a, "-s".toList, showNat n, "-b".toList, showNat b, "--stop-on-maximum".toList]

def oneMaxItems (a n b : Nat) : List (OptDoc × Option (List Char)) :=
  [(algorithmDoc, some (showNat a)), (sizeDoc, some (showNat n)), (budgetDoc, some (showNat b)), (stopDoc, none)]

theorem oneMax_line (a n b : Nat) : CommandLine hncoClass.help (oneMaxWords a n b) (oneMaxItems a n b) := by
  refine .option (words := ["-A".toList, showNat a]) (.letterSeparate (c := 'A') (commandDocs_mem _ (by simp)) rfl) ?_
  refine .option (words := ["-s".toList, showNat n]) (.letterSeparate (c := 's') (commandDocs_mem _ (by simp)) rfl) ?_
  refine .option (words := ["-b".toList, showNat b]) (.letterSeparate (c := 'b') budgetDoc_mem rfl) ?_
  exact .option (words := ["--stop-on-maximum".toList])
    (.flag (p := "stop-on-maximum".toList) ⟨commandDocs_mem _ (by simp), Or.inl rfl⟩ rfl) .done

theorem oneMax_fine (lib : OptLib) {a n b : Nat} (ha : a < 2 ^ 31) (hn : n < 2 ^ 31) (hb : b < 2 ^ 31) :
    ∀ i ∈ oneMaxItems a n b, FineItem lib i := by
  intro i hi
  simp only [oneMaxItems, List.mem_cons, List.not_mem_nil, or_false] at hi
  rcases hi with rfl | rfl | rfl | rfl
  · exact .value rfl (means_nat lib ha)
  · exact .value rfl (means_nat lib hn)
  · exact .value rfl (means_nat lib hb)
  · exact .flag rfl

/-- What the words mean. -/
structure OneMaxCommand (w : HncoWorld) (a n b : Nat) (app : AppOptions Rat) (ao : AlgOptions) : Prop where
  plain : PlainRun w.opt (oneMaxItems a n b)
  asks : AsksFor w (oneMaxItems a n b) (oneMaxReal n)
  minimize : ¬ Present (oneMaxItems a n b) "minimize"
  appSettings : AppSettings w.opt (oneMaxItems a n b) app
  algSettings : AlgorithmSettings w.opt (oneMaxItems a n b) ao
  stop : app.stopOnMaximum = true
  cache : app.cache = false
  budget : app.budget = b
  algorithm : ao.algorithm = a
  numIterations : ao.numIterations = 0
  param : Param w.opt (oneMaxItems a n b) "algorithm" (.int a)

theorem oneMax_command (w : HncoWorld) {a n b : Nat} (ha : a < 2 ^ 31) (hn0 : 0 < n) (hn : n < 2 ^ 31) (hb : b < 2 ^ 31) :
    ∃ app ao, OneMaxCommand w a n b app ao := by
  have hnames : (oneMaxItems a n b).map (fun i => i.1.name) =
    ["algorithm".toList, "bv-size".toList, "budget".toList, "stop-on-maximum".toList] := rfl
  have hno : ∀ name : String, name.toList ∉ ["algorithm".toList, "bv-size".toList, "budget".toList, "stop-on-maximum".toList] →
      ¬ Present (oneMaxItems a n b) name := fun name h => not_present (by rw [hnames]; exact h)
  have hsize : Param w.opt (oneMaxItems a n b) "bv-size" (.int n) :=
    param_given (d := sizeDoc) (k := .int) (commandDocs_mem _ (by simp)) rfl rfl
      ⟨[(algorithmDoc, some (showNat a))], [(budgetDoc, some (showNat b)), (stopDoc, none)], rfl,
        not_again (after := [budgetDoc, stopDoc]) rfl (by decide)⟩ (means_nat _ hn)
  have hfun : Param w.opt (oneMaxItems a n b) "function" (.int 0) :=
    param_default (d := functionDoc) (commandDocs_mem _ (by simp)) rfl rfl (hno _ (by decide))
  have halg : Param w.opt (oneMaxItems a n b) "algorithm" (.int a) :=
    param_given (d := algorithmDoc) (k := .int) (commandDocs_mem _ (by simp)) rfl rfl
      ⟨[], [(sizeDoc, some (showNat n)), (budgetDoc, some (showNat b)), (stopDoc, none)], rfl,
        not_again (after := [sizeDoc, budgetDoc, stopDoc]) rfl (by decide)⟩ (means_nat _ ha)
  have hbudget : Param w.opt (oneMaxItems a n b) "budget" (.int b) :=
    param_given (d := budgetDoc) (k := .int) budgetDoc_mem rfl rfl
      ⟨[(algorithmDoc, some (showNat a)), (sizeDoc, some (showNat n))], [(stopDoc, none)], rfl, by decide⟩ (means_nat _ hb)
  have hit : Param w.opt (oneMaxItems a n b) "num-iterations" (.int 0) :=
    param_default (d := iterationsDoc) (commandDocs_mem _ (by simp)) rfl rfl (hno _ (by decide))
  obtain ⟨_, _, ⟨app, _, happ⟩, ⟨fo, _, hfo⟩, ⟨ao, _, hao⟩⟩ := hnco_options w.opt (oneMax_line a n b) (oneMax_fine w.opt ha hn hb)
  have hfn : fo.function = 0 := by
    obtain ⟨k, h1, _, h2⟩ := hfo.function
    have : k = 0 := param_int_eq h1 hfun
    subst this
    have := h2 le_rfl
    omega
  have hbv : fo.bvSize = n := param_int_eq hfo.bvSize hsize
  refine ⟨app, ao, ⟨plainRun_of_names hnames (by decide), ⟨fo, ⟨[], none⟩, hfo, ?_, by rw [hfn]; simp⟩, hno _ (by decide), happ, hao, ?_,
    ?_, param_int_eq happ.budget hbudget, param_int_eq hao.algorithm halg, param_int_eq hao.numIterations hit, halg⟩⟩
  · rw [make_eq (by omega), hbv]
    simp only [makeCase, hfn]
    rfl
  · exact happ.stopOnMaximum.mpr ⟨(stopDoc, none), by simp [oneMaxItems], rfl⟩
  · rw [← Bool.not_eq_true, happ.cache]
    exact hno _ (by decide)

theorem ones_of_count {x : BV} {n : Nat} (hx : x.length = n) (hc : x.count true = n) : x = List.replicate n true := by
  rw [← hx] at hc
  have := List.count_eq_length.mp hc
  exact List.eq_replicate_iff.mpr ⟨hx, fun b hb => (this b hb).symm⟩

/-- C94: whatever the size `n`, the budget `b` and the random numbers, `hnco -A a -s n -b b --stop-on-maximum`, where the algorithm
is random search, the (1+1) EA or the self-adjusting (1+1) EA, either exits with status 0, having found the vector of ones in at
most `b` evaluations, or exits with status 2, having made `b` evaluations, and reports the value of its solution, which has a
zero. -/
theorem hnco_onemax {a n b : Nat} (ha : a = 10 ∨ a = 300 ∨ a = 301) (hn0 : 0 < n) (hn : n < 2 ^ 31) (hb0 : 0 < b) (hb : b < 2 ^ 31)
    {e : ProgramEnd} (he : HncoEnds w (oneMaxWords a n b) e) :
    ∃ status res, e = .exit status (.results res) ∧ res.solution.length = n ∧ res.value = (res.solution.count true : Nat) ∧
      ((status = 0 ∧ res.solution = List.replicate n true ∧ 1 ≤ res.total ∧ res.total ≤ b) ∨
        (status = 2 ∧ false ∈ res.solution ∧ res.total = b)) := by
  have ha31 : a < 2 ^ 31 := by omega
  obtain ⟨app, ao, hcmd⟩ := oneMax_command w ha31 hn0 hn hb
  have hacc : Accepted w.alg ao n (.sequential 1) := by
    have := hcmd.algorithm
    rcases ha with rfl | rfl | rfl
    · exact .randomSearch this hn0
    · exact .onePlusOneEa this hn0
    · exact .selfAdjusting this hn0
  have hval : ∀ x : BV, x.length = n → (oneMaxReal (K := Rat) n).eval x = ok (((x.count true : Nat) : Rat)) := by
    intro x _
    simp [oneMaxReal, bvHammingWeight_eq]
  obtain ⟨res, h, xs, rfl, hend⟩ := hnco_program (oneMax_line a n b) (oneMax_fine w.opt ha31 hn hb) hcmd.plain hcmd.asks hn0
    (value := fun x => ((x.count true : Nat) : Rat)) (fun x hx => .inl ⟨hcmd.minimize, hval x hx⟩) hcmd.appSettings
    (goal := some (n : Rat)) (.inr ⟨hcmd.stop, hcmd.minimize, rfl, n, rfl, rfl⟩) hcmd.algSettings hacc
    (by rw [hcmd.algorithm]; omega) he
  have hxs : xs = h := by rw [hend.seen, hcmd.cache]; rfl
  subst hxs
  have hgoal : appGoal app (oneMaxReal (K := Rat) n) = some (n : Rat) := by simp [appGoal, hcmd.stop, oneMaxReal]
  have hle : ∀ x : BV, x.length = n → ((x.count true : Nat) : Rat) ≤ n := fun x hx => by
    rw [← hx]
    exact_mod_cast List.count_le_length
  obtain ⟨h1, h2, h3⟩ := hnco_maximum (fn := oneMaxReal (K := Rat) n) (by rw [hgoal]; exact hend) hcmd.stop rfl hle
  have hbud : (xs.length : Int) ≤ b := by
    rw [← hcmd.budget]
    exact hend.budget (by rw [hcmd.budget]; omega)
  have hall : res.exit = 2 → (xs.length : Int) = b := by
    intro hex
    have := (hend.usesUp (by rw [hcmd.numIterations]) rfl (fun t ht x hx => by cases ht; exact h3 hex x hx)).2
    rw [hcmd.cache, hcmd.budget] at this
    simpa using this
  have hne : xs ≠ [] := by
    rintro rfl
    rcases h1 with h1 | h1
    · have := hend.reported.exit.2 n rfl
      rw [h1, hcmd.stop] at this
      simp at this
    · have := hall h1
      simp at this
      omega
  obtain ⟨hmem, hv⟩ := hend.value rfl hne
  have hlen := hend.sizes _ hmem
  refine ⟨res.exit, res, rfl, hlen, hv, ?_⟩
  rw [hend.reported.total]
  rcases h1 with h1 | h1
  · obtain ⟨_, h4, _⟩ := h2 h1
    refine .inl ⟨h1, ones_of_count hlen (by exact_mod_cast h4), ?_, by omega⟩
    exact List.length_pos_iff.mpr hne
  · refine .inr ⟨h1, ?_, by have := hall h1; omega⟩
    by_contra hno
    have : res.solution.count true = res.solution.length := List.count_eq_length.mpr (fun c hc => by
      cases c
      · exact absurd hc hno
      · rfl)
    have h5 := h3 h1 _ hmem
    rw [this, hlen] at h5
    exact lt_irrefl _ h5

/-- C94: `hnco -A 0 -s n -b 0 --stop-on-maximum`, a complete search without budget, always ends; its exit status is 0, and its
solution is the vector of ones. -/
theorem hnco_onemax_complete {n : Nat} (hn0 : 0 < n) (hn : n < 2 ^ 31) :
    (∃ e, HncoEnds w (oneMaxWords 0 n 0) e) ∧ ∀ e, HncoEnds w (oneMaxWords 0 n 0) e →
      ∃ res, e = .exit 0 (.results res) ∧ res.solution = List.replicate n true ∧ res.value = n ∧ res.total ≤ 2 ^ n := by
  obtain ⟨app, ao, hcmd⟩ := oneMax_command w (a := 0) (b := 0) (by omega) hn0 hn (by omega)
  have hval : ∀ x : BV, x.length = n → (oneMaxReal (K := Rat) n).eval x = ok (((x.count true : Nat) : Rat)) := by
    intro x _
    simp [oneMaxReal, bvHammingWeight_eq]
  obtain ⟨h1, h2⟩ := hnco_complete (oneMax_line 0 n 0) (oneMax_fine w.opt (by omega) hn (by omega)) hcmd.plain hcmd.asks hn0
    (value := fun x => ((x.count true : Nat) : Rat)) (fun x hx => .inl ⟨hcmd.minimize, hval x hx⟩) hcmd.appSettings
    (goal := some (n : Rat)) (.inr ⟨hcmd.stop, hcmd.minimize, rfl, n, rfl, rfl⟩) hcmd.param
    (by rw [hcmd.budget]; simp)
  refine ⟨h1, fun e he => ?_⟩
  obtain ⟨res, xs, rfl, hrep, hnd, hlen, hreach, _⟩ := h2 e he
  obtain ⟨hs, hex⟩ := hreach n rfl ⟨List.replicate n true, by simp [oneMaxReal], by simp⟩
  have hex2 : ∃ x ∈ xs, (n : Rat) ≤ ((x.count true : Nat) : Rat) := by
    rw [hrep.success] at hs
    simpa using hs
  obtain ⟨ys, h3, _, h4, h5, _⟩ := hrep.stops n rfl hex2
  have hl : res.solution.length = n := hlen _ (by rw [h3]; simp)
  have hc : res.solution.count true = n := by
    have h6 : n ≤ res.solution.count true := by exact_mod_cast h4
    have h7 : res.solution.count true ≤ res.solution.length := List.count_le_length
    omega
  refine ⟨res, by rw [hex], ones_of_count hl hc, by rw [h5, hc], ?_⟩
  rw [hrep.total]
  exact nodup_length_le hnd hlen

/-! ## Examples -/

/-- A world with a file, which has a solution. -/
def exampleWorld : HncoWorld where
  opt := exampleOptLib
  alg := exampleAlgLib
  fn := exampleLib
  file := fun _ => none
  mapFile := fun _ => none
  solution := fun path => if path = "solution.txt".toList then some "101
".toList else none
  event := 0

/-- Whether a computation ends. -/
def Res.ended {α : Type} : Res α → Bool
  | .ok _ _ => true
  | _ => false

/-- A program which is run has an end if the algorithm ends. -/
theorem ends_of_run {F : AppFactories} {s : OptState} (hparse : hncoClass.parse w.opt false argv = .ok s) {R : HncoReady}
    (hready : ∀ ds, appPrepare w F s ds = .ok (.ready R) ds) {fuel : Nat} {ds : List Nat}
    (hrun : (R.alg.run (R.st.env R.fn) fuel ds).ended = true) (hlast : ∀ r rest, R.alg.run (R.st.env R.fn) fuel ds = .ok r rest →
      ∃ x, r.Last (R.st.env R.fn) x) : ∃ e, AppEnds w F argv e := by
  cases hr : R.alg.run (R.st.env R.fn) fuel ds with
  | ok r rest =>
    obtain ⟨x, hx⟩ := hlast r rest hr
    cases hc : hncoConclude R r x with
    | ok res => exact ⟨_, .run hparse (hready ds) hr hx hc⟩
    | throw e => exact ⟨_, .runFails hparse (hready ds) hr hx hc⟩
    | ub => exact ⟨_, .runConcludes hparse (hready ds) hr hx hc⟩
  | throw e => rw [hr] at hrun; cases hrun
  | ub => rw [hr] at hrun; cases hrun
  | out => rw [hr] at hrun; cases hrun

-- `hnco -A 10 -s 2 -b 3 --stop-on-maximum` has an end.
example : ∃ e, HncoEnds exampleWorld (oneMaxWords 10 2 3) e := by
  obtain ⟨app, ao, hcmd⟩ := oneMax_command exampleWorld (a := 10) (n := 2) (b := 3) (by omega) (by omega) (by omega) (by omega)
  have hl := oneMax_line 10 2 3
  have hf := oneMax_fine exampleWorld.opt (a := 10) (n := 2) (b := 3) (by omega) (by omega) (by omega)
  obtain ⟨s, hparse, hset⟩ := options_read (c := hncoClass) (by simp [optionClasses]) exampleWorld.opt false hl hf
  obtain ⟨app', happ1, happ2⟩ := appOptionsOf_settings hset hf hl.docs
  have := happ2.unique hl.docs hcmd.appSettings
  subst this
  obtain ⟨ao', hao1, hao2⟩ := algOptionsOf_settings hset hf hl.docs
  have := hao2.unique hl.docs hcmd.algSettings
  subst this
  have hfn : (if s.raised "minimize" = true then opposite (oneMaxReal (K := Rat) 2) else oneMaxReal 2) = oneMaxReal 2 := by
    rw [if_neg]
    rw [flag_raised hset hl.docs (show isFlag "minimize" "minimize" = true from flags_ok 12 rfl)]
    exact hcmd.minimize
  have hno : ∀ name : String, name.toList ∉ ["algorithm".toList, "bv-size".toList, "budget".toList, "stop-on-maximum".toList] →
      ¬ Present (oneMaxItems 10 2 3) name := fun name h => not_present h
  have hc : app' = ⟨3, false, false, true, none, false, false⟩ := by
    have h1 := hcmd.budget
    have h2 := hcmd.cache
    have h3 := hcmd.stop
    have h4 : app'.cacheBudget = false := by rw [← Bool.not_eq_true, happ2.cacheBudget]; exact hno _ (by decide)
    have h5 : app'.concreteSolution = false := by rw [← Bool.not_eq_true, happ2.concreteSolution]; exact hno _ (by decide)
    have h6 : app'.printDescription = false := by rw [← Bool.not_eq_true, happ2.printDescription]; exact hno _ (by decide)
    have h7 : app'.target = none := by
      rcases happ2.target with ⟨_, h⟩ | ⟨r, _, h⟩
      · exact h
      · exact absurd h (optional_absent hl.docs (show isOptional "target" "target" = true from optionals_ok 0 rfl) (hno _ (by decide)) r)
    cases app'
    simp only at h1 h2 h3 h4 h5 h6 h7
    subst h1 h2 h3 h4 h5 h6 h7
    rfl
  subst hc
  obtain ⟨m, hm, hrun⟩ := hnco_run (lib := exampleWorld.alg) (ao := ao') (fn := oneMaxReal (K := Rat) 2) (v := exampleWorld.event)
    (.randomSearch hcmd.algorithm (by decide)) (by rw [hcmd.algorithm]; decide) (fun _ _ => rfl) 
    (o := ⟨3, false, false, true, none, false, false⟩) rfl
  have hready := appPrepare_ready hset hf hl.docs hcmd.plain (hncoFunction_asked hset hf hcmd.asks) (by decide) hfn happ1 rfl
    (hncoMakeAlgorithm_own hcmd.plain.incremental hao1 hao2 hm)
  refine ends_of_run hparse hready (fuel := 5) (ds := [0, 1, 1, 0, 0, 0, 1, 1]) ?_ (fun r rest hr => ?_)
  · have hm' : makeAlgorithm (K := Rat) exampleWorld.alg ao' 2 = .own (makeRandomSearch ao' 2) := by
      unfold makeAlgorithm
      simp [hcmd.algorithm]
    change makeAlgorithm exampleWorld.alg ao' 2 = _ at hm
    rw [hm'] at hm
    simp only [makeRandomSearch, hcmd.numIterations, algorithmNew, Outcome.made, FactoryResult.own.injEq] at hm
    cases hm
    decide +kernel
  · have := hrun 5 [0, 1, 1, 0, 0, 0, 1, 1]
    rw [hr] at this
    exact this.1

/-! ## Other command lines -/

def minimizeDoc : OptDoc := ⟨none, "minimize".toList, .flag⟩

def loadDoc : OptDoc := ⟨none, "load-solution".toList, .flag⟩

def printDoc : OptDoc := ⟨none, "print-results".toList, .flag⟩

def neighborhoodDoc : OptDoc := ⟨some 'N', "neighborhood".toList, .value .int (some (.int 0))⟩

def pathDoc : OptDoc := ⟨some 'p', "path".toList, .value .string (some (.str "function.txt".toList))⟩

def solutionPathDoc : OptDoc := ⟨none, "solution-path".toList, .value .string (some (.str "solution.txt".toList))⟩

set_option maxRecDepth 100000 in
theorem otherDocs_mem : ∀ d ∈ [minimizeDoc, loadDoc, printDoc, neighborhoodDoc, pathDoc, solutionPathDoc], d ∈ hncoClass.help := by
  decide +kernel

theorem plainFunction_of_names {names : List (List Char)} (hnames : items.map (fun i => i.1.name) = names)
    (h : ∀ name ∈ ["print-default-parameters", "num-threads", "map", "prior-noise", "parsed-modifier", "additive-gaussian-noise"],
      name.toList ∉ names) : PlainFunction lib items := by
  have h' : ∀ name ∈ ["print-default-parameters", "num-threads", "map", "prior-noise", "parsed-modifier", "additive-gaussian-noise"],
      ¬ Present items name := fun name hn => not_present (by rw [hnames]; exact h name hn)
  refine ⟨h' _ (by simp), ?_, ⟨0, le_rfl, ?_⟩, ?_⟩
  · exact param_default (d := threadsDoc) (commandDocs_mem _ (by simp)) rfl rfl (h' _ (by simp))
  · exact param_default (d := mapDoc) (commandDocs_mem _ (by simp)) rfl rfl (h' _ (by simp))
  · intro name hn
    refine h' _ ?_
    simp only [List.mem_cons, List.not_mem_nil, or_false] at hn
    rcases hn with rfl | rfl | rfl <;> simp

/-- OneMax is the default function. -/
theorem asks_default (hl : CommandLine hncoClass.help argv items) (hf : ∀ i ∈ items, FineItem w.opt i)
    (hno : ¬ Present items "function") {n : Nat} (hn : 0 < n) (hsize : Param w.opt items "bv-size" (.int n)) :
    AsksFor w items (oneMaxReal n) := by
  obtain ⟨_, _, _, ⟨fo, _, hfo⟩, _⟩ := hnco_options w.opt hl hf
  have hfun : Param w.opt items "function" (.int 0) := param_default (d := functionDoc) (commandDocs_mem _ (by simp)) rfl rfl hno
  have hfn : fo.function = 0 := by
    obtain ⟨k, h1, _, h2⟩ := hfo.function
    have : k = 0 := param_int_eq h1 hfun
    subst this
    have := h2 le_rfl
    omega
  have hbv : fo.bvSize = n := param_int_eq hfo.bvSize hsize
  refine ⟨fo, ⟨[], none⟩, hfo, ?_, by rw [hfn]; simp⟩
  rw [make_eq (by omega), hbv]
  simp only [makeCase, hfn]
  rfl

/-- C94: without any option, `hnco` runs random local search on OneMax with 100 bits and a budget of 10000 evaluations: its exit
status is 0, and it reports the value of its solution, which is a greatest one among at most 10000 evaluations. -/
theorem hnco_no_option {e : ProgramEnd} (he : HncoEnds w [] e) :
    ∃ res xs, e = .exit 0 (.results res) ∧ res.total = xs.length ∧ xs.length ≤ 10000 ∧ (∀ x ∈ xs, x.length = 100) ∧
      (xs ≠ [] → res.solution ∈ xs ∧ res.value = (res.solution.count true : Nat) ∧
        ∀ x ∈ xs, x.count true ≤ res.solution.count true) := by
  have hl : CommandLine hncoClass.help [] [] := .done
  have hf : ∀ i ∈ ([] : List (OptDoc × Option (List Char))), FineItem w.opt i := by simp
  have hno : ∀ name, ¬ Present [] name := by rintro name ⟨i, hi, _⟩; simp at hi
  obtain ⟨_, _, ⟨app, _, happ⟩, _, ⟨ao, _, hao⟩⟩ := hnco_options w.opt hl hf
  have hsize : Param w.opt [] "bv-size" (.int (100 : Nat)) :=
    param_default (d := sizeDoc) (commandDocs_mem _ (by simp)) rfl rfl (hno _)
  have halg : ao.algorithm = 100 := param_int_eq hao.algorithm
    (param_default (d := algorithmDoc) (commandDocs_mem _ (by simp)) rfl rfl (hno _))
  have hnb : ao.neighborhood = 0 := param_int_eq hao.neighborhood
    (param_default (d := neighborhoodDoc) (otherDocs_mem _ (by simp)) rfl rfl (hno _))
  have hbudget : app.budget = 10000 := param_int_eq happ.budget (param_default (d := budgetDoc) budgetDoc_mem rfl rfl (hno _))
  have hcache : app.cache = false := by rw [← Bool.not_eq_true, happ.cache]; exact hno _
  have hstop : app.stopOnMaximum = false := by rw [← Bool.not_eq_true, happ.stopOnMaximum]; exact hno _
  have htarget : app.target = none := by
    rcases happ.target with ⟨_, h⟩ | ⟨r, _, h⟩
    · exact h
    · exact absurd h (optional_absent hl.docs (show isOptional "target" "target" = true from optionals_ok 0 rfl) (hno _) r)
  obtain ⟨res, h, xs, rfl, hend⟩ := hnco_program hl hf (plainRun_of_names (items := []) (names := []) rfl (by simp))
    (asks_default hl hf (hno _) (by decide) hsize) (show 0 < (oneMaxReal (K := Rat) 100).size by decide)
    (value := fun x => ((x.count true : Nat) : Rat)) (fun x hx => .inl ⟨hno _, by simp [oneMaxReal, bvHammingWeight_eq]⟩) happ
    (.inl ⟨hstop, rfl⟩) hao (.randomLocalSearch halg (.inl ⟨.inl hnb, by decide⟩)) (by rw [halg]; decide) he
  have hxs : xs = h := by rw [hend.seen, hcache]; rfl
  subst hxs
  refine ⟨res, xs, by rw [hend.reported.exit.1 htarget], hend.reported.total, ?_, hend.sizes, fun hne => ?_⟩
  · have := hend.budget (by rw [hbudget]; decide)
    rw [hbudget] at this
    omega
  · obtain ⟨h1, h2⟩ := hend.value rfl hne
    refine ⟨h1, h2, fun x hx => ?_⟩
    obtain ⟨done, late, h3, h4, h5⟩ := hend.solution (fun t ht => by rw [htarget] at ht; cases ht)
    have h6 : late = [] := List.length_eq_zero_iff.mp (Nat.lt_one_iff.mp h4)
    subst h6
    rw [List.append_nil] at h3
    subst h3
    rcases h5 with h5 | h5
    · exact absurd h5 hne
    · exact_mod_cast h5.2 x hx

/-- C94 (negative part): the behaviour of `hnco -F 5` is undefined, since the default size is 100 bits. -/
theorem hnco_function_five (e : ProgramEnd) : HncoEnds w ["-F".toList, showNat 5] e ↔ e = .undefined := by
  have hl : CommandLine hncoClass.help ["-F".toList, showNat 5] [(functionDoc, some (showNat 5))] :=
    .option (words := ["-F".toList, showNat 5]) (rest := [])
      (.letterSeparate (c := 'F') (commandDocs_mem _ (by simp)) rfl) .done
  refine hnco_doubling_undefined hl ?_ (plainFunction_of_names rfl (by decide)) ?_ (n := 100) ?_ (by decide) e
  · intro i hi
    rw [List.mem_singleton] at hi
    subst hi
    exact .value rfl (means_nat _ (n := 5) (by decide))
  · exact param_given (d := functionDoc) (k := .int) (commandDocs_mem _ (by simp)) rfl rfl ⟨[], [], rfl, by simp⟩
      (means_nat _ (n := 5) (by decide))
  · exact param_default (d := sizeDoc) (commandDocs_mem _ (by simp)) rfl rfl (not_present (by
      change "bv-size".toList ∉ ["function".toList]
      decide))

-- `hnco -F 60`, without a file.
example (e : ProgramEnd) : HncoEnds exampleWorld ["-F".toList, showNat 60] e ↔ e = .exit 1 .message := by
  have hl : CommandLine hncoClass.help ["-F".toList, showNat 60] [(functionDoc, some (showNat 60))] :=
    .option (words := ["-F".toList, showNat 60]) (rest := [])
      (.letterSeparate (c := 'F') (commandDocs_mem _ (by simp)) rfl) .done
  have hf : ∀ i ∈ [(functionDoc, some (showNat 60))], FineItem exampleWorld.opt i := by
    intro i hi
    rw [List.mem_singleton] at hi
    subst hi
    exact .value rfl (means_nat _ (n := 60) (by decide))
  obtain ⟨_, _, _, ⟨fo, _, hfo⟩, _⟩ := hnco_options exampleWorld.opt hl hf
  refine hnco_missing_file hl hf (plainFunction_of_names rfl (by decide)) hfo ?_ (path := "function.txt".toList) ?_ rfl e
  · obtain ⟨k, h1, _, h2⟩ := hfo.function
    have : k = (60 : Nat) := param_int_eq h1
      (param_given (d := functionDoc) (k := .int) (commandDocs_mem _ (by simp)) rfl rfl ⟨[], [], rfl, by simp⟩
        (means_nat _ (n := 60) (by decide)))
    subst this
    have := h2 (by decide)
    have : fo.function = 60 := by omega
    rw [this]
    decide
  · exact param_default (d := pathDoc) (otherDocs_mem _ (by simp)) rfl rfl (not_present (by
      change "path".toList ∉ ["function".toList]
      decide))

-- `hnco --minimize --stop-on-maximum`.
example (e : ProgramEnd) : HncoEnds w ["--minimize".toList, "--stop-on-maximum".toList] e ↔ e = .exit 1 .message := by
  have hl : CommandLine hncoClass.help ["--minimize".toList, "--stop-on-maximum".toList] [(minimizeDoc, none), (stopDoc, none)] := by
    refine .option (words := ["--minimize".toList]) (.flag (p := "minimize".toList) ⟨otherDocs_mem _ (by simp), Or.inl rfl⟩ rfl) ?_
    exact .option (words := ["--stop-on-maximum".toList])
      (.flag (p := "stop-on-maximum".toList) ⟨commandDocs_mem _ (by simp), Or.inl rfl⟩ rfl) .done
  have hf : ∀ i ∈ [(minimizeDoc, none), (stopDoc, none)], FineItem w.opt i := by
    intro i hi
    simp only [List.mem_cons, List.not_mem_nil, or_false] at hi
    rcases hi with rfl | rfl
    · exact .flag rfl
    · exact .flag rfl
  exact hnco_minimize_maximum hl hf (plainFunction_of_names rfl (by decide))
    (asks_default hl hf (not_present (by decide)) (n := 100) (by decide)
      (param_default (d := sizeDoc) (commandDocs_mem _ (by simp)) rfl rfl (not_present (by decide))))
    (by decide) ⟨(minimizeDoc, none), by simp, rfl⟩ ⟨(stopDoc, none), by simp, rfl⟩ e

-- `hnco --load-solution --print-results -s 3`, with a file.
example (e : ProgramEnd) : HncoEnds exampleWorld ["--load-solution".toList, "--print-results".toList, "-s".toList, showNat 3] e ↔
    e = .exit 0 (.shown (.loaded (some 2))) := by
  have hl : CommandLine hncoClass.help ["--load-solution".toList, "--print-results".toList, "-s".toList, showNat 3]
      [(loadDoc, none), (printDoc, none), (sizeDoc, some (showNat 3))] := by
    refine .option (words := ["--load-solution".toList])
      (.flag (p := "load-solution".toList) ⟨otherDocs_mem _ (by simp), Or.inl rfl⟩ rfl) ?_
    refine .option (words := ["--print-results".toList])
      (.flag (p := "print-results".toList) ⟨otherDocs_mem _ (by simp), Or.inl rfl⟩ rfl) ?_
    exact .option (words := ["-s".toList, showNat 3]) (rest := [])
      (.letterSeparate (c := 's') (commandDocs_mem _ (by simp)) rfl) .done
  have hf : ∀ i ∈ [(loadDoc, none), (printDoc, none), (sizeDoc, some (showNat 3))], FineItem exampleWorld.opt i := by
    intro i hi
    simp only [List.mem_cons, List.not_mem_nil, or_false] at hi
    rcases hi with rfl | rfl | rfl
    · exact .flag rfl
    · exact .flag rfl
    · exact .value rfl (means_nat _ (by decide))
  have hno : ∀ name : String, name.toList ∉ ["load-solution".toList, "print-results".toList, "bv-size".toList] →
      ¬ Present [(loadDoc, none), (printDoc, none), (sizeDoc, some (showNat 3))] name := fun name h => not_present h
  obtain ⟨_, _, ⟨app, _, happ⟩, _, _⟩ := hnco_options exampleWorld.opt hl hf
  have hstop : app.stopOnMaximum = false := by rw [← Bool.not_eq_true, happ.stopOnMaximum]; exact hno _ (by decide)
  have htarget : app.target = none := by
    rcases happ.target with ⟨_, h⟩ | ⟨r, _, h⟩
    · exact h
    · exact absurd h (optional_absent hl.docs (show isOptional "target" "target" = true from optionals_ok 0 rfl)
        (hno _ (by decide)) r)
  rw [hnco_load hl hf (plainFunction_of_names rfl (by decide)) (f := oneMaxReal 3)
    (asks_default hl hf (hno _ (by decide)) (by decide)
      (param_given (d := sizeDoc) (k := .int) (commandDocs_mem _ (by simp)) rfl rfl
        ⟨[(loadDoc, none), (printDoc, none)], [], rfl, by simp⟩ (means_nat _ (n := 3) (by decide))))
    (by decide) (value := fun x => ((x.count true : Nat) : Rat))
    (fun x hx => .inl ⟨hno _ (by decide), by simp [oneMaxReal, bvHammingWeight_eq]⟩) happ (goal := none)
    (.inl ⟨hstop, htarget.symm⟩) ⟨(loadDoc, none), by simp, rfl⟩ ⟨(printDoc, none), by simp, rfl⟩ (path := "solution.txt".toList)
    (param_default (d := solutionPathDoc) (otherDocs_mem _ (by simp)) rfl rfl (hno _ (by decide)))
    (x := [true, false, true]) rfl (rest := []) rfl e]
  simp

end Hnco
