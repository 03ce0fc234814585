import Verif.App.MainCommandProps
import Verif.App.InformationProps

/-!
# Information printed by the program `hnco`, from the command line (C94)
-/

namespace Hnco

open Outcome

variable {w : HncoWorld} {argv : List (List Char)} {items : List (OptDoc × Option (List Char))}

/-- The information which is asked for first: the options are looked for in the order of `showingOptions`. -/
def AsksFirst (items : List (OptDoc × Option (List Char))) (name : String) : Prop :=
  ∃ before after, showingOptions = before ++ name :: after ∧ Present items name ∧ ∀ other ∈ before, ¬ Present items other

/-! ## Lemmas -/

section
variable {s : OptState}

theorem asksFirst_before {name other : String} (h : AsksFirst items name)
    (hb : showingOptions.idxOf other < showingOptions.idxOf name) : ¬ Present items other := by
  obtain ⟨before, after, h1, -, h3⟩ := h
  refine h3 _ ?_
  have hnm : name ∈ showingOptions := by rw [h1]; simp
  have hle : showingOptions.idxOf name ≤ before.length := by
    rw [h1]
    by_cases hm : name ∈ before
    · rw [List.idxOf_append_of_mem hm]
      exact le_of_lt (List.idxOf_lt_length_iff.2 hm)
    · rw [List.idxOf_append_of_notMem hm]
      simp
  by_contra hc
  have : showingOptions.idxOf other ≥ before.length := by
    rw [h1, List.idxOf_append_of_notMem hc]
    omega
  omega

theorem asksFirst_present {name : String} (h : AsksFirst items name) : Present items name := by
  obtain ⟨_, _, _, h, _⟩ := h
  exact h

theorem appPrepare_information (hset : Settings hncoClass w.opt items s) (hf : ∀ i ∈ items, FineItem w.opt i)
    (hdocs : ∀ i ∈ items, i.1 ∈ hncoClass.help) (hp : PlainFunction w.opt items) {f : Fn Rat} (hask : AsksFor w items f)
    (hn : 0 < f.size) (hload : ¬ Present items "load-solution") (hstop : ¬ Present items "stop-on-maximum")
    {app : AppOptions Rat} (happ : appOptionsOf s = ok app) (hsm : app.stopOnMaximum = true ↔ Present items "stop-on-maximum") :
    ∃ st, appPrepare w (commandLineFactories w) s =
      Sim.bind (printInformation (infoOptionsOf s) app (if s.raised "minimize" then opposite f else f) st none) fun i =>
        match i with
        | some i => pure (.shown (.info i))
        | none => Sim.lift (appAlgorithm (commandLineFactories w) s (if s.raised "minimize" then opposite f else f) none app st) := by
  have r1 := not_raised hset hdocs (show isFlag "load-solution" "load_solution" = true from flags_ok 1 rfl) hload
  obtain ⟨st, hst⟩ := makeController_ok (v := w.event) (app := app) (fn := if s.raised "minimize" then opposite f else f)
    (fun h => absurd (hsm.1 h) hstop)
  refine ⟨st, ?_⟩
  rw [appPrepare_steps (F := commandLineFactories w) hset hf hdocs hp (hncoFunction_asked hset hf hask) hn]
  unfold appSteps
  rw [happ, sim_bind_ok, hst, sim_bind_ok, if_neg (by rw [r1]; simp)]
  rfl

end

/-! ## Theorems -/

/-- C94: the options which ask for information.  The first one which is in the command line, in the order of the help page, is the
one which is answered, and the program ends: whether the maximum is known, the maximum, the dimension, whether there is an
incremental evaluation (a cache hides it), the function, or the fact that there is no map; if the maximum is asked for and not
known then there is an error message.  The Walsh transform is followed by nothing else. -/
theorem hnco_information (hl : CommandLine hncoClass.help argv items) (hf : ∀ i ∈ items, FineItem w.opt i)
    (hp : PlainFunction w.opt items) {f : Fn Rat} (hask : AsksFor w items f) (hn : 0 < f.size) (hmin : ¬ Present items "minimize")
    (hload : ¬ Present items "load-solution") (hstop : ¬ Present items "stop-on-maximum") (e : ProgramEnd) :
    (AsksFirst items "fn-has-known-maximum" →
      (HncoEnds w argv e ↔ e = .exit 0 (.shown (.info (.answer f.hasMax))))) ∧
    (AsksFirst items "fn-get-maximum" → f.hasMax = true → ∀ M, f.maximum = ok M →
      (HncoEnds w argv e ↔ e = .exit 0 (.shown (.info (.value M))))) ∧
    (AsksFirst items "fn-get-maximum" → f.hasMax = false → (HncoEnds w argv e ↔ e = .exit 1 .message)) ∧
    (AsksFirst items "fn-get-bv-size" → (HncoEnds w argv e ↔ e = .exit 0 (.shown (.info (.size f.size))))) ∧
    (AsksFirst items "fn-provides-incremental-evaluation" → ∀ b : Bool, (b = true ↔ f.hasInc = true ∧ ¬ Present items "cache") →
      (HncoEnds w argv e ↔ e = .exit 0 (.shown (.info (.answer b))))) ∧
    (AsksFirst items "fn-walsh-transform" → HncoEnds w argv e →
      e = .undefined ∨ e = .exit 1 .message ∨ ∃ l, e = .exit 0 (.shown (.info (.amplitudes l)))) ∧
    (AsksFirst items "fn-display" → (HncoEnds w argv e ↔ e = .exit 0 (.shown (.info .function)))) ∧
    (AsksFirst items "map-display" → (HncoEnds w argv e ↔ e = .exit 0 (.shown (.info (.map false))))) := by
  obtain ⟨s, hparse, hset⟩ := options_read (c := hncoClass) (by simp [optionClasses]) w.opt false hl hf
  obtain ⟨app, happ1, happ2⟩ := appOptionsOf_settings hset hf hl.docs
  obtain ⟨st, hprep⟩ := appPrepare_information hset hf hl.docs hp hask hn hload hstop happ1 happ2.stopOnMaximum
  have rmin := not_raised hset hl.docs (show isFlag "minimize" "minimize" = true from flags_ok 12 rfl) hmin
  rw [if_neg (by rw [rmin]; simp)] at hprep
  have r2 := flag_raised hset hl.docs (show isFlag "fn-has-known-maximum" "fn_has_known_maximum" = true from flags_ok 2 rfl)
  have r3 := flag_raised hset hl.docs (show isFlag "fn-get-maximum" "fn_get_maximum" = true from flags_ok 3 rfl)
  have r4 := flag_raised hset hl.docs (show isFlag "fn-get-bv-size" "fn_get_bv_size" = true from flags_ok 4 rfl)
  have r5 := flag_raised hset hl.docs
    (show isFlag "fn-provides-incremental-evaluation" "fn_provides_incremental_evaluation" = true from flags_ok 5 rfl)
  have r6 := flag_raised hset hl.docs (show isFlag "fn-walsh-transform" "fn_walsh_transform" = true from flags_ok 6 rfl)
  have r7 := flag_raised hset hl.docs (show isFlag "fn-display" "fn_display" = true from flags_ok 7 rfl)
  have r8 := flag_raised hset hl.docs (show isFlag "map-display" "map_display" = true from flags_ok 8 rfl)
  have no : ∀ {name other : String}, AsksFirst items name → showingOptions.idxOf other < showingOptions.idxOf name →
      ¬ Present items other := fun h hb => asksFirst_before h hb
  have yes : ∀ {name : String}, AsksFirst items name → Present items name := fun h => asksFirst_present h
  change (_ → (AppEnds w (commandLineFactories w) argv e ↔ _)) ∧ _
  refine ⟨fun h => ?_, fun h hm M hM => ?_, fun h hm => ?_, fun h => ?_, fun h b hb => ?_, fun h => ?_, fun h => ?_, fun h => ?_⟩
  · refine ends_shown hparse (fun ds => ?_) e
    rw [hprep]
    simp only [printInformation, infoOptionsOf, r2.2 (yes h), if_true]
    rfl
  · refine ends_shown hparse (fun ds => ?_) e
    rw [hprep]
    simp only [printInformation, infoOptionsOf, mt r2.1 (no h (by decide)), r3.2 (yes h), hm, hM, if_true, if_false, Bool.false_eq_true]
    rfl
  · refine ends_throw hparse (x := .runtimeError) (fun ds => ?_) e
    rw [hprep]
    simp only [printInformation, infoOptionsOf, mt r2.1 (no h (by decide)), r3.2 (yes h), hm, if_true, if_false, Bool.false_eq_true]
    rfl
  · refine ends_shown hparse (fun ds => ?_) e
    rw [hprep]
    simp only [printInformation, infoOptionsOf, mt r2.1 (no h (by decide)), mt r3.1 (no h (by decide)), r4.2 (yes h), if_true,
      if_false, Bool.false_eq_true]
    rfl
  · refine ends_shown hparse (fun ds => ?_) e
    rw [hprep]
    have hinc : appProvidesIncremental app f = b := by
      rw [Bool.eq_iff_iff, hb, ← happ2.cache]
      unfold appProvidesIncremental
      cases app.cache
      · simp
      · rcases Int.lt_or_le 0 app.budget with hb | hb
        · simp [hb]
        · simp [hb]
    simp only [printInformation, infoOptionsOf, mt r2.1 (no h (by decide)), mt r3.1 (no h (by decide)), mt r4.1 (no h (by decide)),
      r5.2 (yes h), if_true, if_false, Bool.false_eq_true, hinc]
    rfl
  · intro he
    have hstep : appPrepare w (commandLineFactories w) s =
        Sim.bind (appWalsh st f.size) fun l => pure (.shown (.info (.amplitudes l))) := by
      rw [hprep]
      simp only [printInformation, infoOptionsOf, mt r2.1 (no h (by decide)), mt r3.1 (no h (by decide)), mt r4.1 (no h (by decide)),
        mt r5.1 (no h (by decide)), r6.2 (yes h), if_true, if_false, Bool.false_eq_true]
      funext ds
      simp only [bind, Sim.bind]
      cases appWalsh st f.size ds <;> rfl
    have key : ∀ ds x rest, appPrepare w (commandLineFactories w) s ds = .ok x rest → ∃ l, x = .shown (.info (.amplitudes l)) := by
      intro ds x rest hx
      rw [hstep] at hx
      obtain ⟨l, ds', -, hx⟩ := sim_bind_ok_inv hx
      cases hx
      exact ⟨l, rfl⟩
    cases he with
    | options h => rw [hparse] at h; cases h
    | badOptions h => exact Or.inl rfl
    | failed h h' => exact Or.inr (Or.inl rfl)
    | stuck h h' => exact Or.inl rfl
    | shown h h' =>
      rw [hparse] at h; cases h
      obtain ⟨l, hl⟩ := key _ _ _ h'
      cases hl
      exact Or.inr (Or.inr ⟨l, rfl⟩)
    | run h h' => rw [hparse] at h; cases h; obtain ⟨l, hl⟩ := key _ _ _ h'; cases hl
    | runConcludes h h' => exact Or.inl rfl
    | runFails h h' => exact Or.inr (Or.inl rfl)
    | runThrows h h' => exact Or.inr (Or.inl rfl)
    | runStuck h h' => exact Or.inl rfl
  · refine ends_shown hparse (fun ds => ?_) e
    rw [hprep]
    simp only [printInformation, infoOptionsOf, mt r2.1 (no h (by decide)), mt r3.1 (no h (by decide)), mt r4.1 (no h (by decide)),
      mt r5.1 (no h (by decide)), mt r6.1 (no h (by decide)), r7.2 (yes h), if_true, if_false, Bool.false_eq_true]
    rfl
  · refine ends_shown hparse (fun ds => ?_) e
    rw [hprep]
    simp only [printInformation, infoOptionsOf, mt r2.1 (no h (by decide)), mt r3.1 (no h (by decide)), mt r4.1 (no h (by decide)),
      mt r5.1 (no h (by decide)), mt r6.1 (no h (by decide)), mt r7.1 (no h (by decide)), r8.2 (yes h), if_true, if_false,
      Bool.false_eq_true]
    rfl

/-! ## OneMax -/

def getMaximumDoc : OptDoc := ⟨none, "fn-get-maximum".toList, .flag⟩

set_option maxRecDepth 100000 in
theorem getMaximumDoc_mem : getMaximumDoc ∈ hncoClass.help := by decide +kernel

/-- C94: `hnco -s n --fn-get-maximum` prints the number `n`, which is the maximum of OneMax, the default function. -/
theorem hnco_onemax_maximum (w : HncoWorld) {n : Nat} (hn0 : 0 < n) (hn : n < 2 ^ 31) (e : ProgramEnd) :
    HncoEnds w ["-s".toList, showNat n, "--fn-get-maximum".toList] e ↔ e = .exit 0 (.shown (.info (.value (n : Rat)))) := by
  have hl : CommandLine hncoClass.help ["-s".toList, showNat n, "--fn-get-maximum".toList]
      [(sizeDoc, some (showNat n)), (getMaximumDoc, none)] := by
    refine .option (words := ["-s".toList, showNat n]) (.letterSeparate (c := 's') (commandDocs_mem _ (by simp)) rfl) ?_
    exact .option (words := ["--fn-get-maximum".toList])
      (.flag (p := "fn-get-maximum".toList) ⟨getMaximumDoc_mem, Or.inl rfl⟩ rfl) .done
  have hf : ∀ i ∈ [(sizeDoc, some (showNat n)), (getMaximumDoc, none)], FineItem w.opt i := by
    intro i hi
    simp only [List.mem_cons, List.not_mem_nil, or_false] at hi
    rcases hi with rfl | rfl
    · exact .value rfl (means_nat w.opt hn)
    · exact .flag rfl
  have hno : ∀ name : String, name.toList ∉ ["bv-size".toList, "fn-get-maximum".toList] →
      ¬ Present [(sizeDoc, some (showNat n)), (getMaximumDoc, none)] name := fun name h => not_present h
  have hp : PlainFunction w.opt [(sizeDoc, some (showNat n)), (getMaximumDoc, none)] := by
    refine ⟨hno _ (by decide), ?_, ⟨0, le_rfl, ?_⟩, ?_⟩
    · exact param_default (d := threadsDoc) (commandDocs_mem _ (by simp)) rfl rfl (hno _ (by decide))
    · exact param_default (d := mapDoc) (commandDocs_mem _ (by simp)) rfl rfl (hno _ (by decide))
    · intro name hname
      simp only [List.mem_cons, List.not_mem_nil, or_false] at hname
      rcases hname with rfl | rfl | rfl <;> exact hno _ (by decide)
  have hask : AsksFor w [(sizeDoc, some (showNat n)), (getMaximumDoc, none)] (oneMaxReal n) := by
    have hsize : Param w.opt [(sizeDoc, some (showNat n)), (getMaximumDoc, none)] "bv-size" (.int n) :=
      param_given (d := sizeDoc) (k := .int) (commandDocs_mem _ (by simp)) rfl rfl
        ⟨[], [(getMaximumDoc, none)], rfl, not_again (after := [getMaximumDoc]) rfl (by decide)⟩ (means_nat _ hn)
    have hfun : Param w.opt [(sizeDoc, some (showNat n)), (getMaximumDoc, none)] "function" (.int 0) :=
      param_default (d := functionDoc) (commandDocs_mem _ (by simp)) rfl rfl (hno _ (by decide))
    obtain ⟨_, _, _, ⟨fo, _, hfo⟩, _⟩ := hnco_options w.opt hl hf
    have hfn : fo.function = 0 := by
      obtain ⟨k, h1, _, h2⟩ := hfo.function
      have : k = 0 := param_int_eq h1 hfun
      subst this
      have := h2 le_rfl
      omega
    have hbv : fo.bvSize = n := param_int_eq hfo.bvSize hsize
    refine ⟨fo, ⟨[], none⟩, hfo, ?_, by rw [hfn]; simp⟩
    rw [make_eq (by omega), hbv]
    simp only [makeCase, hfn]
    rfl
  refine (hnco_information hl hf hp hask hn0 (hno _ (by decide)) (hno _ (by decide)) (hno _ (by decide)) e).2.1
    ⟨["fn-has-known-maximum"], _, rfl, ⟨(getMaximumDoc, none), by simp, rfl⟩, ?_⟩ rfl _ rfl
  intro other ho
  simp only [List.mem_cons, List.not_mem_nil, or_false] at ho
  subst ho
  exact hno _ (by decide)

end Hnco
