import Verif.App.MainMapProps

/-!
# Command lines of the program `hnco` with a map, from their words to the exit status (C104)
-/

namespace Hnco

open Outcome

variable {w : HncoWorld} {lib : OptLib} {argv : List (List Char)} {items : List (OptDoc × Option (List Char))}

/-! ## Options -/

def mapRandomDoc : OptDoc := ⟨none, "map-random".toList, .flag⟩

def concreteDoc : OptDoc := ⟨none, "concrete-solution".toList, .flag⟩

def descriptionDoc : OptDoc := ⟨none, "print-description".toList, .flag⟩

def mapInputDoc : OptDoc := ⟨none, "map-input-size".toList, .value .int (some (.int 100))⟩

def mapPathDoc : OptDoc := ⟨none, "map-path".toList, .value .string (some (.str "map.txt".toList))⟩

def mapLengthDoc : OptDoc := ⟨none, "map-ts-length".toList, .value .int (some (.int 10))⟩

def mapModeDoc : OptDoc := ⟨none, "map-ts-sampling-mode".toList, .value .int (some (.int 0))⟩

set_option maxRecDepth 100000 in
theorem mapDocs_mem : ∀ d ∈ [mapRandomDoc, concreteDoc, descriptionDoc, mapInputDoc, mapPathDoc, mapLengthDoc, mapModeDoc],
    d ∈ hncoClass.help := by
  decide +kernel

/-- A command line which has none of the options which make it other than a run with a map. -/
theorem mappedRun_of_names {names : List (List Char)} (hnames : items.map (fun i => i.1.name) = names)
    (h : ∀ name ∈ ["print-default-parameters", "num-threads", "prior-noise", "parsed-modifier", "additive-gaussian-noise",
      "load-solution", "incremental-evaluation", "restart"] ++ showingOptions, name.toList ∉ names) : MappedRun lib items := by
  have h' : ∀ name ∈ ["print-default-parameters", "num-threads", "prior-noise", "parsed-modifier", "additive-gaussian-noise",
      "load-solution", "incremental-evaluation", "restart"] ++ showingOptions, ¬ Present items name :=
    fun name hn => not_present (by rw [hnames]; exact h name hn)
  refine ⟨h' _ (by simp), ?_, ?_, ?_, h' _ (by simp), h' _ (by simp)⟩
  · exact param_default (d := threadsDoc) (commandDocs_mem _ (by simp)) rfl rfl (h' _ (by simp))
  · intro name hn
    refine h' _ ?_
    simp only [List.mem_cons, List.not_mem_nil, or_false] at hn
    rcases hn with rfl | rfl | rfl <;> simp
  · intro name hn
    refine h' _ ?_
    rcases List.mem_cons.mp hn with rfl | hn
    · simp
    · exact List.mem_append_right _ hn

/-! ## OneMax through a random map -/

/-- The words of `hnco -A a -s n -b b -M k --map-random --concrete-solution`. -/
def mapWords (a n b k : Nat) : List (List Char) :=
  ["-A".toList, showNat a, "-s".toList, showNat n, "-b".toList, showNat b, "-M".toList, showNat k, "--map-random".toList,
    "--concrete-solution".toList]

def mapItems (a n b k : Nat) : List (OptDoc × Option (List Char)) :=
  [(algorithmDoc, some (showNat a)), (sizeDoc, some (showNat n)), (budgetDoc, some (showNat b)), (mapDoc, some (showNat k)),
    (mapRandomDoc, none), (concreteDoc, none)]

theorem map_line (a n b k : Nat) : CommandLine hncoClass.help (mapWords a n b k) (mapItems a n b k) := by
  refine .option (words := ["-A".toList, showNat a]) (.letterSeparate (c := 'A') (commandDocs_mem _ (by simp)) rfl) ?_
  refine .option (words := ["-s".toList, showNat n]) (.letterSeparate (c := 's') (commandDocs_mem _ (by simp)) rfl) ?_
  refine .option (words := ["-b".toList, showNat b]) (.letterSeparate (c := 'b') budgetDoc_mem rfl) ?_
  refine .option (words := ["-M".toList, showNat k]) (.letterSeparate (c := 'M') (commandDocs_mem _ (by simp)) rfl) ?_
  refine .option (words := ["--map-random".toList]) (.flag (p := "map-random".toList) ⟨mapDocs_mem _ (by simp), Or.inl rfl⟩ rfl) ?_
  exact .option (words := ["--concrete-solution".toList])
    (.flag (p := "concrete-solution".toList) ⟨mapDocs_mem _ (by simp), Or.inl rfl⟩ rfl) .done

theorem map_fine (lib : OptLib) {a n b k : Nat} (ha : a < 2 ^ 31) (hn : n < 2 ^ 31) (hb : b < 2 ^ 31) (hk : k < 2 ^ 31) :
    ∀ i ∈ mapItems a n b k, FineItem lib i := by
  intro i hi
  simp only [mapItems, List.mem_cons, List.not_mem_nil, or_false] at hi
  rcases hi with rfl | rfl | rfl | rfl | rfl | rfl
  · exact .value rfl (means_nat lib ha)
  · exact .value rfl (means_nat lib hn)
  · exact .value rfl (means_nat lib hb)
  · exact .value rfl (means_nat lib hk)
  · exact .flag rfl
  · exact .flag rfl

/-- What the words mean. -/
structure MapCommand (w : HncoWorld) (a n b k : Nat) (app : AppOptions Rat) (ao : AlgOptions) (mo : MapOptions) : Prop where
  run : MappedRun w.opt (mapItems a n b k)
  asks : AsksFor w (mapItems a n b k) (oneMaxReal n)
  minimize : ¬ Present (mapItems a n b k) "minimize"
  appSettings : AppSettings w.opt (mapItems a n b k) app
  algSettings : AlgorithmSettings w.opt (mapItems a n b k) ao
  mapSettings : MapSettings w.opt (mapItems a n b k) mo
  stop : app.stopOnMaximum = false
  target : app.target = none
  concrete : app.concreteSolution = true
  description : app.printDescription = false
  budget : app.budget = b
  algorithm : ao.algorithm = a
  param : Param w.opt (mapItems a n b k) "algorithm" (.int a)
  map : mo = ⟨k, 100, false, 10, .unconstrained, none⟩

theorem map_command (w : HncoWorld) {a n b k : Nat} (ha : a < 2 ^ 31) (hn0 : 0 < n) (hn : n < 2 ^ 31) (hb : b < 2 ^ 31)
    (hk : k < 2 ^ 31) : ∃ app ao mo, MapCommand w a n b k app ao mo := by
  have hl := map_line a n b k
  have hf := map_fine w.opt ha hn hb hk
  have hnames : (mapItems a n b k).map (fun i => i.1.name) =
    ["algorithm".toList, "bv-size".toList, "budget".toList, "map".toList, "map-random".toList, "concrete-solution".toList] := rfl
  have hno : ∀ name : String, name.toList ∉ ["algorithm".toList, "bv-size".toList, "budget".toList, "map".toList, "map-random".toList,
      "concrete-solution".toList] → ¬ Present (mapItems a n b k) name := fun name h => not_present (by rw [hnames]; exact h)
  have hsize : Param w.opt (mapItems a n b k) "bv-size" (.int n) :=
    param_given (d := sizeDoc) (k := .int) (commandDocs_mem _ (by simp)) rfl rfl
      ⟨[(algorithmDoc, some (showNat a))], _, rfl,
        not_again (after := [budgetDoc, mapDoc, mapRandomDoc, concreteDoc]) rfl (by decide)⟩ (means_nat _ hn)
  have halg : Param w.opt (mapItems a n b k) "algorithm" (.int a) :=
    param_given (d := algorithmDoc) (k := .int) (commandDocs_mem _ (by simp)) rfl rfl
      ⟨[], _, rfl, not_again (after := [sizeDoc, budgetDoc, mapDoc, mapRandomDoc, concreteDoc]) rfl (by decide)⟩ (means_nat _ ha)
  have hbudget : Param w.opt (mapItems a n b k) "budget" (.int b) :=
    param_given (d := budgetDoc) (k := .int) budgetDoc_mem rfl rfl
      ⟨[(algorithmDoc, some (showNat a)), (sizeDoc, some (showNat n))], _, rfl,
        not_again (after := [mapDoc, mapRandomDoc, concreteDoc]) rfl (by decide)⟩ (means_nat _ hb)
  have hmap : Param w.opt (mapItems a n b k) "map" (.int k) :=
    param_given (d := mapDoc) (k := .int) (commandDocs_mem _ (by simp)) rfl rfl
      ⟨[(algorithmDoc, some (showNat a)), (sizeDoc, some (showNat n)), (budgetDoc, some (showNat b))], _, rfl,
        not_again (after := [mapRandomDoc, concreteDoc]) rfl (by decide)⟩ (means_nat _ hk)
  obtain ⟨_, _, ⟨app, _, happ⟩, _, ⟨ao, _, hao⟩⟩ := hnco_options w.opt hl hf
  refine ⟨app, ao, ⟨k, 100, false, 10, .unconstrained, none⟩, mappedRun_of_names hnames (by decide),
    asks_default hl hf (hno _ (by decide)) hn0 hsize, hno _ (by decide), happ, hao, ?_, ?_, ?_, ?_, ?_,
    param_int_eq happ.budget hbudget, param_int_eq hao.algorithm halg, halg, rfl⟩
  · refine ⟨⟨rfl, (mapRandomDoc, none), by simp [mapItems], rfl⟩, hmap, ?_, ?_, fun _ => ?_, fun _ => ?_⟩
    · exact param_default (d := mapInputDoc) (mapDocs_mem _ (by simp)) rfl rfl (hno _ (by decide))
    · exact ⟨fun h => Bool.noConfusion h, fun h => absurd h (hno "map-surjective" (by decide))⟩
    · exact param_default (d := mapLengthDoc) (mapDocs_mem _ (by simp)) rfl rfl (hno _ (by decide))
    · exact param_default (d := mapModeDoc) (mapDocs_mem _ (by simp)) rfl rfl (hno _ (by decide))
  · rw [← Bool.not_eq_true, happ.stopOnMaximum]; exact hno _ (by decide)
  · rcases happ.target with ⟨_, h⟩ | ⟨r, _, h⟩
    · exact h
    · exact absurd h (optional_absent hl.docs (show isOptional "target" "target" = true from optionals_ok 0 rfl) (hno _ (by decide)) r)
  · exact happ.concreteSolution.mpr ⟨(concreteDoc, none), by simp [mapItems], rfl⟩
  · rw [← Bool.not_eq_true, happ.printDescription]; exact hno _ (by decide)

theorem oneMaxReal_value {n : Nat} (x : BV) : (oneMaxReal (K := Rat) n).eval x = ok (((x.count true : Nat) : Rat)) := by
  simp [oneMaxReal, bvHammingWeight_eq]

/-- C104: `hnco -A 0 -s n -b 0 -M k --map-random --concrete-solution`, a complete search of OneMax through a random map which keeps the number
of bits: at any end, the exit status is 0 and the solution is the vector of ones. -/
theorem hnco_onemax_map {n k : Nat} (hk : k ∈ [1, 2, 3, 6]) (h6 : k = 6 → 1 < n) (hn0 : 0 < n) (hn : n < 2 ^ 31) {e : ProgramEnd}
    (he : HncoEnds w (mapWords 0 n 0 k) e) :
    ∃ res, e = .exit 0 (.results res) ∧ res.solution = List.replicate n true ∧ res.value = n ∧ res.total = 2 ^ n := by
  simp only [List.mem_cons, List.not_mem_nil, or_false] at hk
  obtain ⟨app, ao, mo, hcmd⟩ := map_command w (a := 0) (b := 0) (k := k) (by omega) hn0 hn (by omega) (by omega)
  have hmo := hcmd.map
  subst hmo
  have hbits : (⟨k, 100, false, 10, .unconstrained, none⟩ : MapOptions).bits n = n := by
    unfold MapOptions.bits
    rw [if_neg (by dsimp only; omega)]
  obtain ⟨res, g, x, xs, rfl, _, hlen, hsearch, hmax⟩ := hnco_map_complete (map_line 0 n 0 k) (map_fine w.opt (by omega) hn (by omega) (by omega))
    hcmd.run hcmd.asks (show 0 < (oneMaxReal (K := Rat) n).size from hn0) (value := fun x => ((x.count true : Nat) : Rat))
    (fun x _ => .inl ⟨hcmd.minimize, oneMaxReal_value x⟩) hcmd.mapSettings
    ⟨by dsimp only; omega, by dsimp only; omega, rfl, fun h => by dsimp only at h; omega, h6⟩ hcmd.appSettings
    (goal := none) (.inl ⟨hcmd.stop, hcmd.target.symm⟩) hcmd.param (by rw [hcmd.budget]; simp)
    (fun _ h => by rw [hcmd.description] at h; cases h) he
  change SearchedThrough app (MapOptions.bits _ n) none _ g x xs res at hsearch
  rw [hbits] at hsearch
  obtain ⟨h1, h2, h3⟩ := hmax (.inr (by dsimp only; omega)) rfl hcmd.concrete
  change res.solution.length = n at h1
  have hc : res.solution.count true = n := by
    have h4 := h3 (List.replicate n true) (by simp [oneMaxReal])
    have h5 : res.solution.count true ≤ res.solution.length := List.count_le_length
    have h6 : n ≤ res.solution.count true := by
      simp only [List.count_replicate_self] at h4
      exact_mod_cast h4
    omega
  refine ⟨res, by rw [hsearch.reported.exit.1 rfl], ones_of_count h1 hc, by rw [h2, hc], ?_⟩
  have htotal : res.total = xs.length := hsearch.reported.total
  rw [htotal]
  refine le_antisymm (nodup_length_le hsearch.once hsearch.sizes) ?_
  obtain ⟨hall, -⟩ := hsearch.optimal (by simp)
  rw [← allBV_length n]
  exact (List.subperm_of_subset (allBV_nodup n) (fun y hy => hall y (mem_allBV.mp hy))).length_le

/-! ## Refusals and undefined behaviour -/

/-- C104: `hnco -M k --map-random …` with an unknown map prints an error message, and its exit status is 1. -/
theorem hnco_map_words_unknown {a n b k : Nat} (hk : 6 < k) (ha : a < 2 ^ 31) (hn0 : 0 < n) (hn : n < 2 ^ 31) (hb : b < 2 ^ 31)
    (hk' : k < 2 ^ 31) (e : ProgramEnd) : HncoEnds w (mapWords a n b k) e ↔ e = .exit 1 .message := by
  obtain ⟨app, ao, mo, hcmd⟩ := map_command w ha hn0 hn hb hk'
  have hmo := hcmd.map
  subst hmo
  exact hnco_map_refused (map_line a n b k) (map_fine w.opt ha hn hb hk') hcmd.run hcmd.asks
    (show 0 < (oneMaxReal (K := Rat) n).size from hn0) (.unknown hcmd.mapSettings.kind (by dsimp only; omega)) e

/-- C104 (negative part): the behaviour of `hnco -A a -s 1 -b b -M 6 --map-random --concrete-solution` is undefined. -/
theorem hnco_map_words_one_bit {a b : Nat} (ha : a < 2 ^ 31) (hb : b < 2 ^ 31) (e : ProgramEnd) :
    HncoEnds w (mapWords a 1 b 6) e ↔ e = .undefined := by
  obtain ⟨app, ao, mo, hcmd⟩ := map_command w (k := 6) ha Nat.one_pos (by omega) hb (by omega)
  have hmo := hcmd.map
  subst hmo
  exact hnco_map_one_bit (map_line a 1 b 6) (map_fine w.opt ha (by omega) hb (by omega)) hcmd.run hcmd.asks rfl hcmd.mapSettings rfl e

-- The hypotheses of `hnco_map_random`: the (1+1) EA through a random affine map from 100 bits.
example {e : ProgramEnd} (he : HncoEnds w (mapWords 300 3 10 5) e) :
    ∃ res, ∃ h : List BV, e = .exit 0 (.results res) ∧ h.length ≤ 10 ∧ (∀ y ∈ h, y.length = 100) ∧ res.solution.length = 3 := by
  obtain ⟨app, ao, mo, hcmd⟩ := map_command w (a := 300) (n := 3) (b := 10) (k := 5) (by omega) (by omega) (by omega) (by omega) (by omega)
  have hmo := hcmd.map
  subst hmo
  have hcache : app.cache = false := by
    rw [← Bool.not_eq_true, hcmd.appSettings.cache]
    exact not_present (by decide)
  obtain ⟨res, g, x, h, xs, rfl, -, hlen, hend⟩ := hnco_map_random (map_line 300 3 10 5)
    (map_fine w.opt (by omega) (by omega) (by omega) (by omega))
    hcmd.run hcmd.asks (show 0 < (oneMaxReal (K := Rat) 3).size by decide) (value := fun x => ((x.count true : Nat) : Rat))
    (fun x _ => .inl ⟨hcmd.minimize, oneMaxReal_value x⟩) hcmd.mapSettings (by simp [MapOptions.Feasible]) hcmd.appSettings
    (goal := none) (.inl ⟨hcmd.stop, hcmd.target.symm⟩) hcmd.algSettings
    (.onePlusOneEa hcmd.algorithm (by decide)) (by rw [hcmd.algorithm]; decide)
    ⟨fun _ _ => by rw [hcmd.budget]; decide, fun _ h => by rw [hcmd.description] at h; cases h⟩ he
  have hxs : xs = h := by rw [hend.run.seen, hcache]; rfl
  subst hxs
  refine ⟨res, xs, by rw [hend.run.reported.exit.1 rfl], ?_, hend.run.sizes, ?_⟩
  · have := hend.run.budget (by rw [hcmd.budget]; decide)
    rw [hcmd.budget] at this
    exact_mod_cast this
  · rw [hend.concrete hcmd.concrete]
    exact hlen x (hend.run.sizes _ (hend.run.solved (fun _ => by rw [hcmd.budget]; decide)))

-- `hnco -M 1`, without a file.
example (e : ProgramEnd) : HncoEnds exampleWorld ["-M".toList, showNat 1] e ↔ e = .exit 1 .message := by
  have hl : CommandLine hncoClass.help ["-M".toList, showNat 1] [(mapDoc, some (showNat 1))] :=
    .option (words := ["-M".toList, showNat 1]) (rest := [])
      (.letterSeparate (c := 'M') (commandDocs_mem _ (by simp)) rfl) .done
  have hf : ∀ i ∈ [(mapDoc, some (showNat 1))], FineItem exampleWorld.opt i := by
    intro i hi
    rw [List.mem_singleton] at hi
    subst hi
    exact .value rfl (means_nat _ (n := 1) (by decide))
  have hno : ∀ name : String, name.toList ∉ ["map".toList] → ¬ Present [(mapDoc, some (showNat 1))] name :=
    fun name h => not_present h
  refine hnco_map_refused hl hf (mappedRun_of_names rfl (by decide)) (asks_default hl hf (hno _ (by decide)) (n := 100) (by decide) ?_)
    (by decide) (.missing (kind := 1) ⟨?_, by decide, hno _ (by decide), "map.txt".toList, ?_, rfl⟩) e
  · exact param_default (d := sizeDoc) (commandDocs_mem _ (by simp)) rfl rfl (hno _ (by decide))
  · exact param_given (d := mapDoc) (k := .int) (commandDocs_mem _ (by simp)) rfl rfl ⟨[], [], rfl, by simp⟩
      (means_nat _ (n := 1) (by decide))
  · exact param_default (d := mapPathDoc) (mapDocs_mem _ (by simp)) rfl rfl (hno _ (by decide))

/-- A world with a file, which has the linear map from two bits onto one bit which adds them. -/
def mapWorld : HncoWorld := { exampleWorld with mapFile := fun _ => some (saveLinear [[true, true]]) }

def parityMap : MapObj := linearObj [[true, true]] 1 2

theorem parityMap_loaded : loadMap 4 (saveLinear (K := Rat) [[true, true]]) = ok parityMap := rfl

/-- The words of `hnco -A 0 -s 1 -b 0 -M 4 --concrete-solution`, and of the same with `--print-description`. -/
def loadWords (described : Bool) : List (List Char) :=
  ["-A".toList, showNat 0, "-s".toList, showNat 1, "-b".toList, showNat 0, "-M".toList, showNat 4, "--concrete-solution".toList] ++
    if described then ["--print-description".toList] else []

def loadItems (described : Bool) : List (OptDoc × Option (List Char)) :=
  [(algorithmDoc, some (showNat 0)), (sizeDoc, some (showNat 1)), (budgetDoc, some (showNat 0)), (mapDoc, some (showNat 4)),
    (concreteDoc, none)] ++ if described then [(descriptionDoc, none)] else []

theorem load_line (described : Bool) : CommandLine hncoClass.help (loadWords described) (loadItems described) := by
  refine .option (words := ["-A".toList, showNat 0]) (.letterSeparate (c := 'A') (commandDocs_mem _ (by simp)) rfl) ?_
  refine .option (words := ["-s".toList, showNat 1]) (.letterSeparate (c := 's') (commandDocs_mem _ (by simp)) rfl) ?_
  refine .option (words := ["-b".toList, showNat 0]) (.letterSeparate (c := 'b') budgetDoc_mem rfl) ?_
  refine .option (words := ["-M".toList, showNat 4]) (.letterSeparate (c := 'M') (commandDocs_mem _ (by simp)) rfl) ?_
  refine .option (words := ["--concrete-solution".toList])
    (.flag (p := "concrete-solution".toList) ⟨mapDocs_mem _ (by simp), Or.inl rfl⟩ rfl) ?_
  cases described with
  | false => exact .done
  | true =>
    exact .option (words := ["--print-description".toList])
      (.flag (p := "print-description".toList) ⟨mapDocs_mem _ (by simp), Or.inl rfl⟩ rfl) .done

theorem load_fine (lib : OptLib) (described : Bool) : ∀ i ∈ loadItems described, FineItem lib i := by
  intro i hi
  have hi : i ∈ [(algorithmDoc, some (showNat 0)), (sizeDoc, some (showNat 1)), (budgetDoc, some (showNat 0)), (mapDoc, some (showNat 4)),
      (concreteDoc, none), (descriptionDoc, none)] := by
    have hsub : ∀ l m : List (OptDoc × Option (List Char)), ∀ b : Bool, i ∈ l ++ (if b then m else []) → i ∈ l ++ m := by
      intro l m b h
      rcases List.mem_append.mp h with h | h
      · exact List.mem_append_left _ h
      · cases b
        · simp at h
        · exact List.mem_append_right _ h
    exact hsub _ _ _ hi
  simp only [List.mem_cons, List.not_mem_nil, or_false] at hi
  rcases hi with rfl | rfl | rfl | rfl | rfl | rfl
  · exact .value rfl (means_nat lib (n := 0) (by decide))
  · exact .value rfl (means_nat lib (n := 1) (by decide))
  · exact .value rfl (means_nat lib (n := 0) (by decide))
  · exact .value rfl (means_nat lib (n := 4) (by decide))
  · exact .flag rfl
  · exact .flag rfl

/-- What the words mean. -/
structure LoadCommand (w : HncoWorld) (described : Bool) (app : AppOptions Rat) : Prop where
  run : MappedRun w.opt (loadItems described)
  asks : AsksFor w (loadItems described) (oneMaxReal 1)
  minimize : ¬ Present (loadItems described) "minimize"
  appSettings : AppSettings w.opt (loadItems described) app
  algorithm : Param w.opt (loadItems described) "algorithm" (.int 0)
  map : Param w.opt (loadItems described) "map" (.int (4 : Nat))
  path : Param w.opt (loadItems described) "map-path" (.str "map.txt".toList)
  random : ¬ Present (loadItems described) "map-random"
  stop : app.stopOnMaximum = false
  target : app.target = none
  concrete : app.concreteSolution = true
  description : app.printDescription = described
  budget : app.budget = 0

theorem load_command (w : HncoWorld) (described : Bool) : ∃ app, LoadCommand w described app := by
  have hl := load_line described
  have hf := load_fine w.opt described
  have hsub : ∀ name ∈ (loadItems described).map (fun i => i.1.name), name ∈ ["algorithm".toList, "bv-size".toList, "budget".toList,
      "map".toList, "concrete-solution".toList, "print-description".toList] := by
    cases described <;> decide
  have hno : ∀ name : String, name.toList ∉ ["algorithm".toList, "bv-size".toList, "budget".toList, "map".toList,
      "concrete-solution".toList, "print-description".toList] → ¬ Present (loadItems described) name :=
    fun name h => not_present (fun h' => h (hsub _ h'))
  have hsize : Param w.opt (loadItems described) "bv-size" (.int (1 : Nat)) :=
    param_given (d := sizeDoc) (k := .int) (commandDocs_mem _ (by simp)) rfl rfl
      ⟨[(algorithmDoc, some (showNat 0))], _, rfl, by cases described <;> decide⟩ (means_nat _ (by decide))
  have halg : Param w.opt (loadItems described) "algorithm" (.int (0 : Nat)) :=
    param_given (d := algorithmDoc) (k := .int) (commandDocs_mem _ (by simp)) rfl rfl
      ⟨[], _, rfl, by cases described <;> decide⟩ (means_nat _ (by decide))
  have hbudget : Param w.opt (loadItems described) "budget" (.int (0 : Nat)) :=
    param_given (d := budgetDoc) (k := .int) budgetDoc_mem rfl rfl
      ⟨[(algorithmDoc, some (showNat 0)), (sizeDoc, some (showNat 1))], _, rfl, by cases described <;> decide⟩ (means_nat _ (by decide))
  have hmap : Param w.opt (loadItems described) "map" (.int (4 : Nat)) :=
    param_given (d := mapDoc) (k := .int) (commandDocs_mem _ (by simp)) rfl rfl
      ⟨[(algorithmDoc, some (showNat 0)), (sizeDoc, some (showNat 1)), (budgetDoc, some (showNat 0))], _, rfl,
        by cases described <;> decide⟩ (means_nat _ (by decide))
  obtain ⟨_, _, ⟨app, _, happ⟩, _, _⟩ := hnco_options w.opt hl hf
  refine ⟨app, ?_, asks_default hl hf (hno _ (by decide)) Nat.one_pos hsize, hno _ (by decide), happ, halg, hmap, ?_, hno _ (by decide), ?_, ?_,
    ?_, ?_, param_int_eq happ.budget hbudget⟩
  · cases described <;> exact mappedRun_of_names rfl (by decide)
  · exact param_default (d := mapPathDoc) (mapDocs_mem _ (by simp)) rfl rfl (hno _ (by decide))
  · rw [← Bool.not_eq_true, happ.stopOnMaximum]; exact hno _ (by decide)
  · rcases happ.target with ⟨_, h⟩ | ⟨r, _, h⟩
    · exact h
    · exact absurd h (optional_absent hl.docs (show isOptional "target" "target" = true from optionals_ok 0 rfl) (hno _ (by decide)) r)
  · exact happ.concreteSolution.mpr ⟨(concreteDoc, none), by simp [loadItems], rfl⟩
  · cases described with
    | false => rw [← Bool.not_eq_true, happ.printDescription]; exact not_present (by decide)
    | true => exact happ.printDescription.mpr ⟨(descriptionDoc, none), by simp [loadItems], rfl⟩

-- `hnco -A 0 -s 1 -b 0 -M 4 --concrete-solution`: the maximum of OneMax on one bit is found through the map.
example : (∃ e, HncoEnds mapWorld (loadWords false) e) ∧ ∀ e, HncoEnds mapWorld (loadWords false) e →
    ∃ res, e = .exit 0 (.results res) ∧ res.solution = [true] := by
  obtain ⟨app, hcmd⟩ := load_command mapWorld false
  have hshape : F2.HasShape 1 2 [[true, true]] := by simp [F2.HasShape]
  have hg := linearMap_spec 1 2 (by decide) (by decide) [[true, true]] hshape
  obtain ⟨h1, h2⟩ := hnco_map_loaded_complete (load_line false) (load_fine mapWorld.opt false) hcmd.run hcmd.asks
    (show 0 < (oneMaxReal (K := Rat) 1).size from Nat.one_pos) (value := fun x => ((x.count true : Nat) : Rat))
    (fun x _ => .inl ⟨hcmd.minimize, oneMaxReal_value x⟩) hcmd.map (by decide) (by decide) hcmd.random hcmd.path rfl parityMap_loaded rfl
    (by decide) (g := F2.mulVec [[true, true]]) hg (b := true) (by decide) hcmd.appSettings (goal := none) (.inl ⟨hcmd.stop, hcmd.target.symm⟩)
    hcmd.algorithm (by rw [hcmd.budget]) (fun _ h => by rw [hcmd.description] at h; cases h)
  refine ⟨h1, fun e he => ?_⟩
  obtain ⟨res, x, xs, rfl, hs⟩ := h2 e he
  have hsur : MapSpec.Surjective 2 1 (F2.mulVec [[true, true]]) := by
    intro y hy
    obtain ⟨b, rfl⟩ := List.length_eq_one_iff.mp hy
    cases b
    · exact ⟨[true, true], rfl, by decide⟩
    · exact ⟨[true, false], rfl, by decide⟩
  obtain ⟨q1, q2, q3⟩ := hs.maximum (n := 1) (fun y hy => (hg y [false] hy rfl).2) hsur hcmd.concrete
  refine ⟨res, by rw [hs.reported.exit.1 rfl], ?_⟩
  have h4 := q3 [true] rfl
  obtain ⟨b, hb⟩ := List.length_eq_one_iff.mp q1
  rw [hb] at h4 ⊢
  cases b
  · simp at h4
    exact absurd h4 (by decide)
  · rfl

-- With `--print-description` too, the behaviour is undefined.
example (e : ProgramEnd) : HncoEnds mapWorld (loadWords true) e ↔ e = .undefined := by
  obtain ⟨app, hcmd⟩ := load_command mapWorld true
  have hshape : F2.HasShape 1 2 [[true, true]] := by simp [F2.HasShape]
  have hg := linearMap_spec 1 2 (by decide) (by decide) [[true, true]] hshape
  exact hnco_map_described (load_line true) (load_fine mapWorld.opt true) hcmd.run hcmd.asks
    (show 0 < (oneMaxReal (K := Rat) 1).size from Nat.one_pos) (value := fun x => ((x.count true : Nat) : Rat))
    (fun x _ => .inl ⟨hcmd.minimize, oneMaxReal_value x⟩) ⟨hcmd.map, by decide, hcmd.random, _, hcmd.path, rfl⟩ parityMap_loaded rfl
    (by decide) (by decide) (g := F2.mulVec [[true, true]]) hg (b := true) (by decide) hcmd.appSettings hcmd.stop
    hcmd.algorithm (by rw [hcmd.budget]) hcmd.concrete hcmd.description e

end Hnco
