import Verif.App.FactoryLemmas
import Verif.Function.QuboProps
import Verif.Function.CnfProps
import Verif.Function.IsingProps
import Verif.Function.NkProps
import Verif.Function.WalshProps
import Verif.Serialization.Props

/-!
# The function factory

C81: the functions made by the factory from options, and from any file.
-/

namespace Hnco

open Outcome

variable {K : Type} [Field K] [LinearOrder K]

/-! ## Which functions are made -/

/-- C81: a size which is not positive is an error, whatever the function. -/
theorem factory_no_size (lib : FactoryLib K) (o : FactoryOptions) (file : InstanceFile K) (h : o.bvSize ≤ 0) :
    makeFunction lib o file = .throw .runtimeError := by
  unfold makeFunction
  rw [if_pos h]

theorem make_eq {o : FactoryOptions} (h : 0 < o.bvSize) (lib : FactoryLib K) (file : InstanceFile K) :
    makeFunction lib o file = makeCase lib o o.bvSize.toNat file := by
  unfold makeFunction
  rw [if_neg (by omega)]

/-- C81: an unknown function is an error, whatever the other options and the file. -/
theorem factory_unknown (lib : FactoryLib K) (o : FactoryOptions) (file : InstanceFile K)
    (h : o.function ∉ constructedIds ++ loadedIds ++ otherIds) : makeFunction lib o file = .throw .runtimeError := by
  by_cases h0 : o.bvSize ≤ 0
  · exact factory_no_size lib o file h0
  · rw [make_eq (by omega)]
    have known : ∀ k, o.function = k → k ∈ constructedIds ++ loadedIds ++ otherIds →
        ∀ a : Outcome (Made K), a = .throw .runtimeError := fun k hk hm => absurd (hk ▸ hm) h
    have others : ∀ k < 1101, (k = 150 ∨ k = 200 ∨ (500 ≤ k ∧ k ≤ 504) ∨ (510 ≤ k ∧ k ≤ 514) ∨ (520 ≤ k ∧ k ≤ 524) ∨
        (530 ≤ k ∧ k ≤ 534) ∨ k = 1000 ∨ k = 1100) → k ∈ constructedIds ++ loadedIds ++ otherIds := by
      decide +kernel
    unfold makeCase
    split <;> first | exact known _ ‹_› (by decide) _ | skip
    unfold makeCase2
    split <;> first | exact known _ ‹_› (by decide) _ | skip
    unfold makeCase3
    split <;> first | exact known _ ‹_› (by decide) _ | skip
    exact if_neg fun hc => h (others _ (by omega) hc)

/-- C81: a function which is read from a file does not depend on the size given in the options. -/
theorem factory_loaded_size (lib : FactoryLib K) (o : FactoryOptions) (file : InstanceFile K) (h0 : 0 < o.bvSize)
    (hid : o.function ∈ loadedIds) {n : Int} (hn : 0 < n) :
    makeFunction lib { o with bvSize := n } file = makeFunction lib o file := by
  simp only [loadedIds, List.mem_cons, List.not_mem_nil, or_false] at hid
  rw [make_eq h0, make_eq (by simpa using hn)]
  rcases hid with h | h | h | h | h | h | h | h | h | h | h | h | h <;> simp only [makeCase, makeCase2, makeCase3, h]

section
variable [IsStrictOrderedRing K]

/-- C81: a function which is made from options has the size given in the options, and it is sound if the options are safe; sizes
and parameters which are not accepted are errors, except that an integer overflow, no trap and an empty prefix are undefined. -/
theorem factory_constructed (lib : FactoryLib K) (o : FactoryOptions) (file : InstanceFile K) (h0 : 0 < o.bvSize)
    (h31 : o.bvSize < 2 ^ 31) (hid : o.function ∈ constructedIds) :
    (o.Accepted → ∃ f, makeFunction lib o file = ok (.plain f) ∧ (f.size : Int) = o.bvSize ∧ (o.Safe lib → f.Sound)) ∧
    (¬ o.Accepted → makeFunction lib o file = .throw .runtimeError ∨
      (makeFunction lib o file = ub ∧ ((o.function = 5 ∧ 30 < o.bvSize) ∨ (o.function = 110 ∧ o.numTraps = 0) ∨
        (o.function = 140 ∧ o.prefixLength = 0)))) := by
  rw [make_eq h0]
  obtain ⟨n, hsize⟩ : ∃ n : Nat, o.bvSize = n := ⟨o.bvSize.toNat, by omega⟩
  rw [hsize] at h0 h31
  have hn : 0 < n := by simpa using h0
  have hn31 : n < 2 ^ 31 := by exact_mod_cast h31
  have good : ∀ {cond : Prop}, (o.Accepted ↔ cond) →
      (cond → ∃ f, makeCase lib o n file = ok (.plain f) ∧ f.size = n ∧ (o.Safe lib → f.Sound)) →
      (¬ cond → makeCase lib o n file = .throw .runtimeError ∨
        (makeCase lib o n file = ub ∧ ((o.function = 5 ∧ 30 < o.bvSize) ∨ (o.function = 110 ∧ o.numTraps = 0) ∨
        (o.function = 140 ∧ o.prefixLength = 0)))) →
      (o.Accepted → ∃ f, makeCase lib o o.bvSize.toNat file = ok (.plain f) ∧ (f.size : Int) = o.bvSize ∧
        (o.Safe lib → f.Sound)) ∧
      (¬ o.Accepted → makeCase lib o o.bvSize.toNat file = .throw .runtimeError ∨
        (makeCase lib o o.bvSize.toNat file = ub ∧ ((o.function = 5 ∧ 30 < o.bvSize) ∨ (o.function = 110 ∧ o.numTraps = 0) ∨
        (o.function = 140 ∧ o.prefixLength = 0)))) := by
    intro cond hc h1 h2
    rw [hc, show o.bvSize.toNat = n by omega]
    refine ⟨fun h => ?_, h2⟩
    obtain ⟨f, a1, a2, a3⟩ := h1 h
    exact ⟨f, a1, by rw [a2, hsize], a3⟩
  have always : ∀ f : Fn K, o.Accepted → makeCase lib o n file = ok (.plain f) → f.size = n → (o.Safe lib → f.Sound) →
      (o.Accepted → ∃ f, makeCase lib o o.bvSize.toNat file = ok (.plain f) ∧ (f.size : Int) = o.bvSize ∧
        (o.Safe lib → f.Sound)) ∧
      (¬ o.Accepted → makeCase lib o o.bvSize.toNat file = .throw .runtimeError ∨
        (makeCase lib o o.bvSize.toNat file = ub ∧ ((o.function = 5 ∧ 30 < o.bvSize) ∨ (o.function = 110 ∧ o.numTraps = 0) ∨
        (o.function = 140 ∧ o.prefixLength = 0)))) :=
    fun f ha hm hs hso => good (cond := True) (iff_true_intro ha) (fun _ => ⟨f, hm, hs, hso⟩) (fun h => absurd trivial h)
  simp only [constructedIds, List.mem_cons, List.not_mem_nil, or_false] at hid
  rcases hid with h | h | h | h | h | h | h | h | h | h | h | h | h | h | h | h | h
  · exact always (oneMaxReal n) (by constructor <;> (intro h'; exfalso; omega)) (by simp only [makeCase, makeCase2, makeCase3, h]) rfl
      (fun _ => oneMaxReal_sound n)
  · refine good (cond := n ≤ 30) ⟨fun ha => by have := ha.doubling h; omega,
      fun hc => by constructor <;> intro h' <;> first | omega | (exfalso; omega)⟩ (fun hc => ?_) (fun hc => ?_)
    · refine ⟨linearFunction ((List.range n).map fun i : Nat => (2 : K) ^ i), ?_, by simp [linearFunction], fun _ =>
        ⟨declares_total (linear_maximum _), fun _ => linear_maximum _, fun _ => linear_incremental _⟩⟩
      simp only [makeCase, makeCase2, makeCase3, h]
      rw [(doublingWeights_eq hn).1 hc, ok_bind]
    · right
      refine ⟨?_, Or.inl ⟨h, by omega⟩⟩
      simp only [makeCase, makeCase2, makeCase3, h]
      rw [(doublingWeights_eq hn).2 (by omega)]
      rfl
  · exact always _ (by constructor <;> (intro h'; exfalso; omega)) (by simp only [makeCase, makeCase2, makeCase3, h]) rfl
      (fun _ => real_sound (leadingOnes_maximum n))
  · exact always _ (by constructor <;> (intro h'; exfalso; omega)) (by simp only [makeCase, makeCase2, makeCase3, h]) rfl
      (fun _ => real_sound (ridge_maximum n))
  · exact always _ (by constructor <;> (intro h'; exfalso; omega)) (by simp only [makeCase, makeCase2, makeCase3, h]) rfl
      (fun _ => real_sound (needle_maximum n))
  · refine good (cond := 1 ≤ o.threshold) ⟨fun ha => ha.jump (Or.inl h),
      fun hc => by constructor <;> intro h' <;> first | omega | (exfalso; omega)⟩ (fun hc => ?_) (fun hc => ?_)
    · have hj := (jumpNew_spec n o.threshold hn).1.mpr hc
      refine ⟨_, ?_, ?_, fun _ => real_sound (jump_maximum n o.threshold hj)⟩
      · simp only [makeCase, makeCase2, makeCase3, h]
        rw [hj, ok_bind]
      · rfl
    · left
      simp only [makeCase, makeCase2, makeCase3, h]
      rw [(jumpNew_spec n o.threshold hn).2 (by omega)]
      rfl
  · refine good (cond := 1 ≤ o.threshold) ⟨fun ha => ha.jump (Or.inr h),
      fun hc => by constructor <;> intro h' <;> first | omega | (exfalso; omega)⟩ (fun hc => ?_) (fun hc => ?_)
    · have hj := (jumpNew_spec n o.threshold hn).1.mpr hc
      refine ⟨_, ?_, ?_, fun _ => real_sound (deceptiveJump_maximum n o.threshold hj)⟩
      · simp only [makeCase, makeCase2, makeCase3, h]
        rw [hj, ok_bind]
      · rfl
    · left
      simp only [makeCase, makeCase2, makeCase3, h]
      rw [(jumpNew_spec n o.threshold hn).2 (by omega)]
      rfl
  · refine good (cond := o.threshold ≤ (n / 2 : Nat) - 1) ⟨fun ha => by have := ha.peaks (Or.inl h); omega,
      fun hc => by constructor <;> intro h' <;> first | omega | (exfalso; omega)⟩ (fun hc => ?_) (fun hc => ?_)
    · have hj := (peaksNew_spec n o.threshold _).1.mpr ⟨hc, rfl⟩
      refine ⟨_, ?_, ?_, fun hs => real_sound (fourPeaks_maximum n o.threshold _ (hs.peaks (Or.inl h)) hj)⟩
      · simp only [makeCase, makeCase2, makeCase3, h]
        rw [hj, ok_bind]
      · rfl
    · left
      simp only [makeCase, makeCase2, makeCase3, h]
      rw [(peaksNew_spec n o.threshold 0).2 (by omega)]
      rfl
  · refine good (cond := o.threshold ≤ (n / 2 : Nat) - 1) ⟨fun ha => by have := ha.peaks (Or.inr h); omega,
      fun hc => by constructor <;> intro h' <;> first | omega | (exfalso; omega)⟩ (fun hc => ?_) (fun hc => ?_)
    · have hj := (peaksNew_spec n o.threshold _).1.mpr ⟨hc, rfl⟩
      refine ⟨_, ?_, ?_, fun hs => real_sound (sixPeaks_maximum n o.threshold _ (hs.peaks (Or.inr h)) hj)⟩
      · simp only [makeCase, makeCase2, makeCase3, h]
        rw [hj, ok_bind]
      · rfl
    · left
      simp only [makeCase, makeCase2, makeCase3, h]
      rw [(peaksNew_spec n o.threshold 0).2 (by omega)]
      rfl
  · refine always (labsFn false n) (by constructor <;> (intro h'; exfalso; omega)) (by simp only [makeCase, makeCase2, makeCase3, h]) rfl
      (fun _ => ofEval_sound fun x hx => ?_)
    refine ⟨?_, ?_⟩
    rotate_left
    · show labsEval _ _ x = _
      unfold labsEval
      rw [assert_pos (by simpa using hx), ok_bind, labs_autocorrelation _ x (by simpa using hx), ok_bind]
      rfl
  · refine always (labsFn true n) (by constructor <;> (intro h'; exfalso; omega)) (by simp only [makeCase, makeCase2, makeCase3, h]) rfl
      (fun hs => ofEval_sound fun x hx => ?_)
    have h2 : 2 ≤ x.length := by have := hs.merit h; omega
    obtain ⟨e, _, _, he, _⟩ := labs_merit (K := K) (List.replicate n 0) x (by simpa using hx) h2
    exact ⟨_, he⟩
  · refine good (cond := 9 ∣ n) ⟨fun ha => by have := ha.cancellation (Or.inl h); omega,
      fun hc => by constructor <;> intro h' <;> first | omega | (exfalso; omega)⟩ (fun hc => ?_) (fun hc => ?_)
    · obtain ⟨m, hm⟩ := hc
      have hj := ((cancellationNew_spec n).1 m).mpr hm
      have hd := (summationCancellation_maximum (K := K) n m hj).1
      refine ⟨_, ?_, ?_, fun _ => ⟨declares_total hd, fun _ => hd, fun h => (by cases h)⟩⟩
      · simp only [makeCase, makeCase2, makeCase3, h]
        rw [hj, ok_bind]
      · rfl
    · left
      simp only [makeCase, makeCase2, makeCase3, h]
      rw [(cancellationNew_spec n).2 hc]
      rfl
  · refine good (cond := 9 ∣ n) ⟨fun ha => by have := ha.cancellation (Or.inr h); omega,
      fun hc => by constructor <;> intro h' <;> first | omega | (exfalso; omega)⟩ (fun hc => ?_) (fun hc => ?_)
    · obtain ⟨m, hm⟩ := hc
      have hj := ((cancellationNew_spec n).1 m).mpr hm
      refine ⟨sinusSummationCancellation lib.sin n m, ?_, ?_, fun hs => ?_⟩
      · simp only [makeCase, makeCase2, makeCase3, h]
        rw [hj, ok_bind]
      · rfl
      · have hd := (sinusSummationCancellation_maximum (K := K) lib.sin (hs.sinus h) n m hj).1
        exact ⟨declares_total hd, fun _ => hd, fun h => (by cases h)⟩
    · left
      simp only [makeCase, makeCase2, makeCase3, h]
      rw [(cancellationNew_spec n).2 hc]
      rfl
  · refine good (cond := o.numTraps ∣ n) ⟨fun ha => by have := ha.trap h; rw [hsize] at this; exact_mod_cast this,
      fun hc => by
        constructor <;> intro h' <;> first | (exfalso; omega) | (rw [hsize]; exact_mod_cast hc)⟩ (fun hc => ?_) (fun hc => ?_)
    · obtain ⟨s, hs⟩ := hc
      have hm : 0 < o.numTraps := by
        rcases Nat.eq_zero_or_pos o.numTraps with h0 | h0
        · rw [h0] at hs; omega
        · exact h0
      have hj := ((trapNew_spec n o.numTraps hm).1 s).mpr hs
      refine ⟨_, ?_, ?_, fun _ => real_sound (trap_maximum n o.numTraps s hj)⟩
      · simp only [makeCase, makeCase2, makeCase3, h]
        rw [hj, ok_bind]
      · rfl
    · rcases Nat.eq_zero_or_pos o.numTraps with hz | hm
      · right
        refine ⟨?_, Or.inr (Or.inl ⟨h, hz⟩)⟩
        simp only [makeCase, makeCase2, makeCase3, h]
        rw [hz, trapNew, assert_neg (by simp)]
        rfl
      · left
        simp only [makeCase, makeCase2, makeCase3, h]
        rw [(trapNew_spec n o.numTraps hm).2 hc]
        rfl
  · refine good (cond := ∃ d, n = 2 ^ d) ⟨fun ha => ?_, fun hc => ?_⟩ (fun hc => ?_) (fun hc => ?_)
    · obtain ⟨d, hd⟩ := ha.hiff h
      exact ⟨d, by rw [hsize] at hd; exact_mod_cast hd⟩
    · constructor <;> intro h' <;> first | (exfalso; omega) | skip
      obtain ⟨d, hd⟩ := hc
      exact ⟨d, by rw [hsize, hd]; push_cast; rfl⟩
    · obtain ⟨d, hd⟩ := hc
      have hj := ((hiffNew_spec n hn hn31).1 d).mpr hd
      refine ⟨_, ?_, ?_, fun hs => real_sound (f := hiff n d) ?_⟩
      · simp only [makeCase, makeCase2, makeCase3, h]
        rw [hj, ok_bind]
      · rfl
      · have h26 : n ≤ 2 ^ 26 := by have := hs.hiff h; rw [hsize] at this; exact_mod_cast this
        subst hd
        apply hiff_maximum
        have hd26 : d ≤ 26 := (Nat.pow_le_pow_iff_right (by omega)).mp h26
        calc (d + 1) * 2 ^ d ≤ 27 * 2 ^ 26 := Nat.mul_le_mul (by omega) h26
          _ < 2 ^ 31 := by norm_num
    · left
      simp only [makeCase, makeCase2, makeCase3, h]
      rw [(hiffNew_spec n hn hn31).2 hc]
      rfl
  · exact always _ (by constructor <;> (intro h'; exfalso; omega)) (by simp only [makeCase, makeCase2, makeCase3, h]) rfl
      (fun _ => real_sound (plateau_maximum n))
  · refine good (cond := o.prefixLength ∣ n ∧ 2 ≤ o.prefixLength) ⟨fun ha => ?_, fun hc => ?_⟩ (fun hc => ?_) (fun hc => ?_)
    · obtain ⟨h1, h2⟩ := ha.longPath h
      exact ⟨by rw [hsize] at h2; exact_mod_cast h2, h1⟩
    · constructor <;> intro h' <;> first | (exfalso; omega) | skip
      exact ⟨hc.2, by rw [hsize]; exact_mod_cast hc.1⟩
    · have hj := (longPathNew_spec n o.prefixLength hn (by omega)).1.mpr hc
      refine ⟨_, ?_, ?_, fun _ => ⟨real_total (f := longPath n o.prefixLength) ?_, fun hm => real_maximum ?_, fun h => (by cases h)⟩⟩
      · simp only [makeCase, makeCase2, makeCase3, h]
        rw [hj, ok_bind]
      · rfl
      · intro x hx
        obtain ⟨path, _, _, _, _, h5, h6⟩ := longPath_path n o.prefixLength hj
        by_cases hxp : x ∈ path
        · obtain ⟨i, hi, he⟩ := List.mem_iff_getElem.mp hxp
          exact ⟨_, h5 i x (by rw [List.getElem?_eq_getElem hi, he])⟩
        · exact ⟨_, h6 x hx hxp⟩
      · exact (longPath_maximum n o.prefixLength hj (of_decide_eq_true hm)).1
    · rcases Nat.eq_zero_or_pos o.prefixLength with hz | hm
      · right
        refine ⟨?_, Or.inr (Or.inr ⟨h, hz⟩)⟩
        simp only [makeCase, makeCase2, makeCase3, h]
        rw [hz, longPathNew, assert_pos (by simpa using hn), ok_bind, assert_neg (by simp)]
        rfl
      · left
        simp only [makeCase, makeCase2, makeCase3, h]
        rw [(longPathNew_spec n o.prefixLength hn hm).2 hc]
        rfl

/-! ## Their values -/

omit [IsStrictOrderedRing K] in
theorem makes_with {lib : FactoryLib K} {o : FactoryOptions} {file : InstanceFile K} {n : Nat} (hsize : o.bvSize = n)
    (hn : 0 < n) (f : Fn K) (hm : makeCase lib o n file = ok (.plain f)) (hs : f.size = n) {value : BV → K → Prop}
    (hv : ∀ x : BV, x.length = n → ∃ v, f.eval x = ok v ∧ value x v) : MakesWith lib o file value := by
  refine ⟨f, ?_, by rw [hs, hsize], fun x hx => hv x (by rw [hx, hs])⟩
  rw [make_eq (by omega), hsize]
  exact hm

omit [IsStrictOrderedRing K] in
theorem makes_real {lib : FactoryLib K} {o : FactoryOptions} {file : InstanceFile K} {n : Nat} (hsize : o.bvSize = n)
    (hn : 0 < n) (f : Fn Int) (hm : makeCase lib o n file = ok (.plain f.real)) (hs : f.size = n) {value : BV → K → Prop}
    (hv : ∀ x : BV, x.length = n → ∃ v : Int, f.eval x = ok v ∧ value x v) : MakesWith lib o file value :=
  makes_with hsize hn f.real hm hs fun x hx => by
    obtain ⟨v, h1, h2⟩ := hv x hx
    exact ⟨_, real_eval h1, h2⟩

omit [IsStrictOrderedRing K] in
/-- C81: functions of the number of ones: number of ones (0), all ones (20), jump (30) and deceptive jump (31). -/
theorem factory_counts (lib : FactoryLib K) (o : FactoryOptions) (file : InstanceFile K) (n : Nat) (hsize : o.bvSize = n)
    (hn : 0 < n) :
    (o.function = 0 → MakesWith lib o file fun x v => v = (x.count true : K)) ∧
    (o.function = 20 → MakesWith lib o file fun x v => v = if x = List.replicate n true then 1 else 0) ∧
    (o.function = 30 → 1 ≤ o.threshold → MakesWith lib o file fun x v =>
      v = if x.count true < n ∧ (x.count true : Int) > n - o.threshold then 0 else (x.count true : K)) ∧
    (o.function = 31 → 1 ≤ o.threshold → MakesWith lib o file fun x v =>
      v = if x.count true < n ∧ (x.count true : Int) > n - o.threshold then (n : K) - x.count true
        else (o.threshold : K) + x.count true) := by
  refine ⟨fun h => ?_, fun h => ?_, fun h ht => ?_, fun h ht => ?_⟩
  · exact makes_with hsize hn (oneMaxReal n) (by simp only [makeCase, h]) rfl
      fun x _ => ⟨_, rfl, by rw [show bvHammingWeight x = x.count true by simpa [oneMax] using oneMax_value n x]⟩
  · refine makes_real hsize hn (needle n) (by simp only [makeCase, h]) rfl fun x hx => ⟨_, needle_value n x, ?_⟩
    rw [hx]
    push_cast
    rfl
  · have hj := (jumpNew_spec n o.threshold hn).1.mpr ht
    refine makes_real hsize hn (jump n o.threshold) ?_ rfl fun x hx => ⟨_, jump_value n _ x hx, by push_cast; rfl⟩
    simp only [makeCase, h]
    rw [hj, ok_bind]
  · have hj := (jumpNew_spec n o.threshold hn).1.mpr ht
    refine makes_real hsize hn (deceptiveJump n o.threshold) ?_ rfl
      fun x hx => ⟨_, deceptiveJump_value n _ x hx, by push_cast; rfl⟩
    simp only [makeCase, h]
    rw [hj, ok_bind]

omit [IsStrictOrderedRing K] in
theorem head_exists (b : Bool) (x : BV) : ∃ k, IsHead b x k := by
  induction x with
  | nil => exact ⟨0, by simp [IsHead]⟩
  | cons a x ih =>
    obtain ⟨k, h1, h2, h3⟩ := ih
    by_cases hab : a = b
    · refine ⟨k + 1, by simpa using h1, fun i hi => ?_, by simpa using h3⟩
      cases i with
      | zero => simp [hab]
      | succ i => simpa using h2 i (by omega)
    · exact ⟨0, by simp, fun i hi => absurd hi (by omega), by simpa using hab⟩

/-- C81: functions of the first and last bits: leading ones (10), ridge (11), plateau (130), four peaks (40) and six peaks (41). -/
theorem factory_prefixes (lib : FactoryLib K) (o : FactoryOptions) (file : InstanceFile K) (n : Nat) (hsize : o.bvSize = n)
    (hn : 0 < n) :
    (o.function = 10 → MakesWith lib o file fun x v => ∃ k, IsHead true x k ∧ v = (k : K)) ∧
    (o.function = 11 → MakesWith lib o file fun x v => (∃ k ≤ n, x = onesZeros n k ∧ v = (n : K) + k) ∨
      ((∀ k ≤ n, x ≠ onesZeros n k) ∧ v = (n : K) - x.count true)) ∧
    (o.function = 130 → MakesWith lib o file fun x v => (x = List.replicate n true ∧ v = (n : K) + 2) ∨
      (∃ k < n, x = onesZeros n k ∧ v = (n : K) + 1) ∨
      ((∀ k ≤ n, x ≠ onesZeros n k) ∧ v = (n : K) - x.count true)) ∧
    (o.function = 40 → o.threshold ≤ (n / 2 : Nat) - 1 → MakesWith lib o file fun x v => ∃ h k, IsHead true x h ∧
      IsHead false x.reverse k ∧ v = ((max h k : Nat) : K) + if h > o.threshold ∧ k > o.threshold then (n : K) else 0) ∧
    (o.function = 41 → o.threshold ≤ (n / 2 : Nat) - 1 → MakesWith lib o file fun x v => ∃ h0 h1 k0 k1, IsHead false x h0 ∧
      IsHead true x h1 ∧ IsHead false x.reverse k0 ∧ IsHead true x.reverse k1 ∧
      v = ((max (max h0 h1) (max k0 k1) : Nat) : K) +
        if (h0 > o.threshold ∧ k1 > o.threshold) ∨ (h1 > o.threshold ∧ k0 > o.threshold) then (n : K) else 0) := by
  refine ⟨fun h => ?_, fun h => ?_, fun h => ?_, fun h ht => ?_, fun h ht => ?_⟩
  · refine makes_real hsize hn (leadingOnes n) (by simp only [makeCase, h]) rfl fun x _ => ?_
    obtain ⟨k, h1, h2⟩ := leadingOnes_value n x
    exact ⟨_, h1, k, h2, by push_cast; rfl⟩
  · refine makes_real hsize hn (ridge n) (by simp only [makeCase, h]) rfl fun x hx => ?_
    by_cases hk : ∃ k ≤ n, x = onesZeros n k
    · obtain ⟨k, hkn, rfl⟩ := hk
      exact ⟨_, (ridge_value n).1 k hkn, Or.inl ⟨k, hkn, rfl, by push_cast; rfl⟩⟩
    · push Not at hk
      exact ⟨_, (ridge_value n).2 x hx hk, Or.inr ⟨hk, by push_cast; rfl⟩⟩
  · refine makes_real hsize hn (plateau n) (by simp only [makeCase, makeCase2, h]) rfl fun x hx => ?_
    by_cases hk : ∃ k ≤ n, x = onesZeros n k
    · obtain ⟨k, hkn, rfl⟩ := hk
      rcases Nat.lt_or_ge k n with hlt | hge
      · exact ⟨_, (plateau_value n).2.1 k hlt, Or.inr (Or.inl ⟨k, hlt, rfl, by push_cast; rfl⟩)⟩
      · obtain rfl : k = n := by omega
        have he : onesZeros k k = List.replicate k true := by simp [onesZeros]
        rw [he]
        exact ⟨_, (plateau_value k).1, Or.inl ⟨rfl, by push_cast; rfl⟩⟩
    · push Not at hk
      exact ⟨_, (plateau_value n).2.2 x hx hk, Or.inr (Or.inr ⟨hk, by push_cast; rfl⟩)⟩
  · have hj := (peaksNew_spec n o.threshold _).1.mpr ⟨ht, rfl⟩
    refine makes_real hsize hn (fourPeaks n o.threshold (2 * n - o.threshold - 1)) ?_ rfl fun x hx => ?_
    · simp only [makeCase, h]
      rw [hj, ok_bind]
    · obtain ⟨a, ha⟩ := head_exists true x
      obtain ⟨b, hb⟩ := head_exists false x.reverse
      exact ⟨_, fourPeaks_value n _ _ x a b ha hb, a, b, ha, hb, by rw [hx]; push_cast; rfl⟩
  · have hj := (peaksNew_spec n o.threshold _).1.mpr ⟨ht, rfl⟩
    refine makes_real hsize hn (sixPeaks n o.threshold (2 * n - o.threshold - 1)) ?_ rfl fun x hx => ?_
    · simp only [makeCase, h]
      rw [hj, ok_bind]
    · obtain ⟨a0, ha0⟩ := head_exists false x
      obtain ⟨a1, ha1⟩ := head_exists true x
      obtain ⟨b0, hb0⟩ := head_exists false x.reverse
      obtain ⟨b1, hb1⟩ := head_exists true x.reverse
      exact ⟨_, sixPeaks_value n _ _ x a0 a1 b0 b1 ha0 ha1 hb0 hb1, a0, a1, b0, b1, ha0, ha1, hb0, hb1,
        by rw [hx]; push_cast; rfl⟩

omit [IsStrictOrderedRing K] in
/-- C81: functions of blocks of bits: traps (110) and hierarchical if and only if (120). -/
theorem factory_blocks (lib : FactoryLib K) (o : FactoryOptions) (file : InstanceFile K) (n : Nat) (hsize : o.bvSize = n)
    (hn : 0 < n) (hn31 : n < 2 ^ 31) :
    (o.function = 110 → ∀ s, n = o.numTraps * s → MakesWith lib o file fun x v => v = ∑ i ∈ Finset.range o.numTraps,
      let w := ((x.drop (i * s)).take s).count true
      if w = s then (s : K) else s - w - 1) ∧
    (o.function = 120 → ∀ d, n = 2 ^ d → MakesWith lib o file fun x v =>
      v = ∑ i ∈ Finset.range (d + 1), ∑ j ∈ Finset.range (2 ^ (d - i)),
        if UniformBlock x (j * 2 ^ i) (2 ^ i) then (2 : K) ^ i else 0) := by
  refine ⟨fun h s hs => ?_, fun h d hd => ?_⟩
  · have hm : 0 < o.numTraps := by
      rcases Nat.eq_zero_or_pos o.numTraps with h0 | h0
      · rw [h0] at hs; omega
      · exact h0
    have hj := ((trapNew_spec n o.numTraps hm).1 s).mpr hs
    refine makes_real hsize hn (trap n o.numTraps s) ?_ rfl fun x hx => ?_
    · simp only [makeCase, makeCase2, h]
      rw [hj, ok_bind]
    · refine ⟨_, by rw [hs]; exact trap_value _ _ x (by rw [hx, hs]), ?_⟩
      push_cast
      refine Finset.sum_congr rfl fun i _ => ?_
      simp only [trapBlock]
      push_cast
      rfl
  · have hj := ((hiffNew_spec n hn hn31).1 d).mpr hd
    refine makes_real hsize hn (hiff n d) ?_ rfl fun x hx => ?_
    · simp only [makeCase, makeCase2, h]
      rw [hj, ok_bind]
    · refine ⟨_, by rw [hd]; exact hiff_value d x (by rw [hx, hd]), ?_⟩
      simp only [hiffValue]
      push_cast
      rfl

/-- C81: functions of sequences: autocorrelation (80), merit factor (81), and summation cancellation (100, 101). -/
theorem factory_sequences (lib : FactoryLib K) (o : FactoryOptions) (file : InstanceFile K) (n : Nat) (hsize : o.bvSize = n)
    (hn : 0 < n) :
    (o.function = 80 → MakesWith lib o file fun x v =>
      v = -∑ k ∈ Finset.Ico 1 n, (∑ i ∈ Finset.range (n - k), (pm x i : K) * pm x (i + k)) ^ 2) ∧
    (o.function = 81 → 2 ≤ n → MakesWith lib o file fun x v => ∃ e : K, 0 < e ∧
      e = ∑ k ∈ Finset.Ico 1 n, (∑ i ∈ Finset.range (n - k), (pm x i : K) * pm x (i + k)) ^ 2 ∧
      v = (n : K) ^ 2 / (2 * e)) ∧
    (o.function = 100 → ∀ m, n = 9 * m → MakesWith lib o file fun x v =>
      v = -∑ k ∈ Finset.range m, |∑ i ∈ Finset.range (k + 1), (encoded x i : K) / 100|) ∧
    (o.function = 101 → ∀ m, n = 9 * m → MakesWith lib o file fun x v => ∃ y : Nat → K, y 0 = (encoded x 0 : K) / 100 ∧
      (∀ i, y (i + 1) = (encoded x (i + 1) : K) / 100 + lib.sin (y i)) ∧ v = -∑ k ∈ Finset.range m, |y k|) := by
  refine ⟨fun h => ?_, fun h h2 => ?_, fun h m hm => ?_, fun h m hm => ?_⟩
  · refine makes_with hsize hn (labsFn false n) (by simp only [makeCase, makeCase2, h]) rfl fun x hx => ?_
    refine ⟨_, ?_, rfl⟩
    show labsEval _ _ x = _
    unfold labsEval
    rw [assert_pos (by simpa using hx), ok_bind, labs_autocorrelation _ x (by simpa using hx), ok_bind, hx]
    simp
  · refine makes_with hsize hn (labsFn true n) (by simp only [makeCase, makeCase2, h]) rfl fun x hx => ?_
    obtain ⟨e, he0, he, hv, _⟩ := labs_merit (K := K) (List.replicate n 0) x (by simpa using hx) (by omega)
    refine ⟨_, hv, (e : K), by exact_mod_cast he0, ?_, by rw [hx]⟩
    rw [labs_autocorrelation _ x (by simpa using hx)] at he
    rw [← ok.inj he, hx]
    push_cast
    rfl
  · have hj := ((cancellationNew_spec n).1 m).mpr hm
    refine makes_with hsize hn (summationCancellation n m) ?_ rfl fun x hx => ?_
    · simp only [makeCase, makeCase2, h]
      rw [hj, ok_bind]
    · exact ⟨_, by rw [hm]; exact summationCancellation_value m x (by rw [hx, hm]), rfl⟩
  · have hj := ((cancellationNew_spec n).1 m).mpr hm
    refine makes_with hsize hn (sinusSummationCancellation lib.sin n m) ?_ rfl fun x hx => ?_
    · simp only [makeCase, makeCase2, h]
      rw [hj, ok_bind]
    · let y : Nat → K := fun i => Nat.rec ((encoded x 0 : K) / 100) (fun i v => (encoded x (i + 1) : K) / 100 + lib.sin v) i
      exact ⟨_, by rw [hm]; exact sinusSummationCancellation_value lib.sin m x (by rw [hx, hm]) y rfl (fun _ => rfl),
        y, rfl, fun _ => rfl, rfl⟩

omit [IsStrictOrderedRing K] in
/-- C81: the long path (140): along the path the value is the position, elsewhere it leads to the start of the path. -/
theorem factory_longPath (lib : FactoryLib K) (o : FactoryOptions) (file : InstanceFile K) (n : Nat) (hsize : o.bvSize = n)
    (hn : 0 < n) (h : o.function = 140) (hk : o.prefixLength ∣ n) (hk2 : 2 ≤ o.prefixLength) :
    ∃ path : List BV, path.length + o.prefixLength = o.prefixLength * 2 ^ (n / o.prefixLength) + 1 ∧ path.Nodup ∧
      (∀ (i : Nat) (x y : BV), path[i]? = some x → path[i + 1]? = some y → Adjacent x y) ∧
      MakesWith lib o file fun x v => (∃ i : Nat, path[i]? = some x ∧ v = (i : K) + 1) ∨
        (x ∉ path ∧ v = -((n : K) * (x.take o.prefixLength).count true + (x.drop o.prefixLength).count true)) := by
  have hj := (longPathNew_spec n o.prefixLength hn (by omega)).1.mpr ⟨hk, hk2⟩
  obtain ⟨path, h1, h2, h3, h4, h5, h6⟩ := longPath_path n o.prefixLength hj
  refine ⟨path, h1, h2, h4, makes_real hsize hn (longPath n o.prefixLength) ?_ rfl fun x hx => ?_⟩
  · simp only [makeCase, makeCase2, makeCase3, h]
    rw [hj, ok_bind]
  · by_cases hxp : x ∈ path
    · obtain ⟨i, hi, he⟩ := List.mem_iff_getElem.mp hxp
      have hi' : path[i]? = some x := by rw [List.getElem?_eq_getElem hi, he]
      exact ⟨_, h5 i x hi', Or.inl ⟨i, hi', by push_cast; rfl⟩⟩
    · exact ⟨_, h6 x hx hxp, Or.inr ⟨hxp, by push_cast; rfl⟩⟩

/-- C81: the linear function with doubling weights (5), up to 30 bits. -/
theorem factory_doubling (lib : FactoryLib K) (o : FactoryOptions) (file : InstanceFile K) (n : Nat) (hsize : o.bvSize = n)
    (hn : 0 < n) (h : o.function = 5) (h30 : n ≤ 30) :
    MakesWith lib o file fun x v => v = ∑ i ∈ Finset.range n, if x[i]? = some true then (2 : K) ^ i else 0 := by
  refine makes_with hsize hn (linearFunction ((List.range n).map fun i : Nat => (2 : K) ^ i)) ?_ (by simp [linearFunction])
    fun x hx => ?_
  · simp only [makeCase, h]
    rw [(doublingWeights_eq hn).1 h30, ok_bind]
  · subst hx
    have hw : ((List.range x.length).map fun i : Nat => (2 : K) ^ i) = List.ofFn fun i : Fin x.length => (2 : K) ^ i.val := by
      apply List.ext_getElem <;> simp
    have hx : x = List.ofFn fun i : Fin x.length => x[i.val] := by
      apply List.ext_getElem <;> simp
    refine ⟨_, ?_, rfl⟩
    have := linear_value (fun i : Fin x.length => (2 : K) ^ i.val) (fun i : Fin x.length => x[i.val])
    rw [hw]
    rw [← hx] at this
    rw [this, Finset.sum_range]
    congr 1
    refine Finset.sum_congr rfl fun i _ => ?_
    simp

omit [IsStrictOrderedRing K] in
/-- C81 (negative part): with 31 bits or more, the weights are doubled beyond the largest `int`; the default size is 100. -/
theorem factory_doubling_overflows (lib : FactoryLib K) (o : FactoryOptions) (file : InstanceFile K) (h : o.function = 5)
    (h31 : 31 ≤ o.bvSize) : makeFunction lib o file = ub := by
  rw [make_eq (by omega)]
  simp only [makeCase, h]
  rw [(doublingWeights_eq (by omega)).2 (by omega)]
  rfl

/-! ## Functions which are read from a file -/

omit [Field K] [LinearOrder K] [IsStrictOrderedRing K] in
theorem read_ok {α : Type} {file : InstanceFile K} {reader : Reader K α} {β : Type} {k : α → Outcome β} {b : β}
    (h : (do let a ← file.read reader; k a) = ok b) :
    ∃ ts a rest, file.archive = some ts ∧ reader ts = ok (a, rest) ∧ k a = ok b := by
  obtain ⟨a, h1, h2⟩ := bind_eq_ok.mp h
  unfold InstanceFile.read at h1
  split at h1
  · cases h1
  · rename_i ts hts
    obtain ⟨r, h3, h4⟩ := bind_eq_ok.mp h1
    cases h4
    exact ⟨ts, r.1, r.2, hts, h3, h2⟩

/-- C81: whatever the file, if it is accepted then the function is sound, for linear functions (1), QUBO (50), MaxSat (70),
Not All Equal 3-SAT (71), equal products (90), partitions (91) and Walsh expansions of degree 1 (161). -/
theorem factory_loaded_sound (lib : FactoryLib K) (o : FactoryOptions) (file : InstanceFile K)
    (hid : o.function ∈ [1, 50, 70, 71, 90, 91, 161]) (made : Made K) (h : makeFunction lib o file = ok made) :
    ∃ f, made = .plain f ∧ f.Sound := by
  have h0 : 0 < o.bvSize := by
    by_contra hc
    rw [factory_no_size lib o file (by omega)] at h
    cases h
  rw [make_eq h0] at h
  simp only [List.mem_cons, List.not_mem_nil, or_false] at hid
  rcases hid with hid | hid | hid | hid | hid | hid | hid <;> simp only [makeCase, makeCase2, makeCase3, hid] at h
  · obtain ⟨ts, w, rest, h1, h2, h3⟩ := read_ok h
    cases h3
    exact ⟨_, rfl, declares_total (linear_maximum _), fun _ => linear_maximum _, fun _ => linear_incremental _⟩
  · obtain ⟨q, h1, h2⟩ := bind_eq_ok.mp h
    cases h2
    refine ⟨_, rfl, ofEval_sound fun x hx => ?_⟩
    have hq : GridShape q q.length q.length := by
      by_cases hne : ∀ l ∈ splitLines file.text, IsBlankLine l
      · rw [quboLoad_blank _ _ _ hne] at h1
        cases h1
        exact ⟨rfl, fun r hr => by cases hr⟩
      · rcases quboLoad_cases lib.readFloat [] file.text hne with ⟨q', dim, es, h3, _, h4⟩ | ⟨h3, _⟩
        · rw [h3] at h1
          cases h1
          rw [h4.1.1]
          exact h4.1
        · rw [h3] at h1
          cases h1
    exact ⟨_, qubo_value q _ hq x hx⟩
  · obtain ⟨e, h1, h2⟩ := bind_eq_ok.mp h
    cases h2
    refine ⟨_, rfl, ofEval_sound fun x hx => ?_⟩
    have := (cnfLoad_range file.text e.1 e.2 h1).2
    exact ⟨_, by rw [maxSat_value e.2 x (by rw [hx]; exact this), ok_bind]⟩
  · obtain ⟨e, h1, h2⟩ := bind_eq_ok.mp h
    cases h2
    refine ⟨_, rfl, ofEval_sound fun x hx => ?_⟩
    obtain ⟨h3, h4⟩ := (nae3Load_iff file.text e.1 e.2).mp h1
    have := (cnfLoad_range file.text e.1 e.2 h3).2
    exact ⟨_, by rw [maxNae3Sat_value e.2 x (by rw [hx]; exact this) h4, ok_bind]⟩
  · obtain ⟨ts, w, rest, h1, h2, h3⟩ := read_ok h
    cases h3
    exact ⟨_, rfl, ofEval_sound fun x hx => ⟨_, equalProducts_value w x hx⟩⟩
  · obtain ⟨ts, w, rest, h1, h2, h3⟩ := read_ok h
    cases h3
    exact ⟨_, rfl, ofEval_sound fun x hx => ⟨_, by rw [partition_value w x hx, ok_bind]⟩⟩
  · obtain ⟨ts, w, rest, h1, h2, h3⟩ := read_ok h
    cases h3
    exact ⟨_, rfl, declares_total (walsh1_maximum _), fun _ => walsh1_maximum _, fun _ => walsh1_incremental _⟩

omit [IsStrictOrderedRing K] in
/-- C81: a file which is not an archive is an error for the functions which are read from an archive. -/
theorem factory_not_archive (lib : FactoryLib K) (o : FactoryOptions) (file : InstanceFile K)
    (hid : o.function ∈ [1, 60, 90, 91, 160, 161, 162, 171, 172]) (h : file.archive = none) :
    makeFunction lib o file = .throw .runtimeError := by
  by_cases h0 : o.bvSize ≤ 0
  · exact factory_no_size lib o file h0
  · rw [make_eq (by omega)]
    simp only [List.mem_cons, List.not_mem_nil, or_false] at hid
    rcases hid with hid | hid | hid | hid | hid | hid | hid | hid | hid <;>
      (simp only [makeCase, makeCase2, makeCase3, hid, InstanceFile.read, h]; rfl)

omit [IsStrictOrderedRing K] in
/-- C81 (negative part): the archives of NK landscapes (60), Walsh expansions (160) and of degree 2 (162), and Ising models (171,
172) are not checked: some archives are accepted although the function then reads out of the bounds of a vector, and an archive
with an empty Walsh expansion is accepted although it has no size. -/
theorem factory_unchecked (lib : FactoryLib K) (o : FactoryOptions) (h0 : 0 < o.bvSize) (text : List Char)
    (hid : o.function ∈ [60, 160, 162, 171, 172]) :
    (∃ tokens f x, makeFunction lib o ⟨text, some tokens⟩ = ok (.plain f) ∧ x.length = f.size ∧ f.eval x = ub) ∧
    (o.function = 160 → makeFunction lib o ⟨text, some (saveWalsh [])⟩ = ub) := by
  simp only [List.mem_cons, List.not_mem_nil, or_false] at hid
  have hid' := hid
  rw [show (∃ tokens f x, makeFunction lib o ⟨text, some tokens⟩ = ok (.plain f) ∧ x.length = f.size ∧ f.eval x = ub) ↔
    ∃ tokens f x, makeCase lib o o.bvSize.toNat ⟨text, some tokens⟩ = ok (.plain f) ∧ x.length = f.size ∧ f.eval x = ub by
      simp only [make_eq h0]]
  constructor
  · rcases hid with hid | hid | hid | hid | hid
    · refine ⟨saveNk ⟨[], [[0]]⟩, nkFn ⟨[], [[0]]⟩, [true], ?_, rfl, rfl⟩
      simp only [makeCase, makeCase2, makeCase3, hid, InstanceFile.read]
      have := functions_roundTrip.2.2.1 (⟨[], [[0]]⟩ : Nk K) []
      rw [List.append_nil] at this
      rw [this]
      rfl
    · refine ⟨saveWalsh [⟨[true], 1⟩, ⟨[true, true], 1⟩], Fn.ofEval 1 (walshExpansionEval [⟨[true], 1⟩, ⟨[true, true], 1⟩]),
        [true], ?_, rfl, rfl⟩
      simp only [makeCase, makeCase2, makeCase3, hid, InstanceFile.read]
      have := functions_roundTrip.2.2.2.2.2.1 ([⟨[true], 1⟩, ⟨[true, true], 1⟩] : List (WalshTerm K)) []
      rw [List.append_nil] at this
      rw [this]
      rfl
    · refine ⟨saveWalsh2 ([], [[]]), walsh2Fn ([], [[]]), [true], ?_, rfl, rfl⟩
      simp only [makeCase, makeCase2, makeCase3, hid, InstanceFile.read]
      have := functions_roundTrip.2.2.2.2.2.2 (([], [[]]) : List K × List (List K)) []
      rw [List.append_nil] at this
      rw [this]
      rfl
    · refine ⟨saveIsing1 ⟨[1, 1], [], false⟩, ising1Fn ⟨[1, 1], [], false⟩, [true, true], ?_, rfl, rfl⟩
      simp only [makeCase, makeCase2, makeCase3, hid, InstanceFile.read]
      have := functions_roundTrip.2.2.2.1 (⟨[1, 1], [], false⟩ : Ising1 K) []
      rw [List.append_nil] at this
      rw [this]
      rfl
    · refine ⟨saveIsing2 ⟨[], [], [[1, 1]], false⟩, ising2FnOf ⟨[], [], [[1, 1]], false⟩ 2, [true, true], ?_, rfl, rfl⟩
      simp only [makeCase, makeCase2, makeCase3, hid, InstanceFile.read]
      have := functions_roundTrip.2.2.2.2.1 (⟨[], [], [[1, 1]], false⟩ : Ising2 K) []
      rw [List.append_nil] at this
      rw [this]
      rfl
  · intro hid
    rw [make_eq h0]
    simp only [makeCase, makeCase2, makeCase3, hid, InstanceFile.read]
    have := functions_roundTrip.2.2.2.2.2.1 ([] : List (WalshTerm K)) []
    rw [List.append_nil] at this
    rw [this]
    rfl

end

/-! ## Examples -/

/-- A library without functions. -/
def exampleLib : FactoryLib Rat where
  sin := fun _ => 0
  readFloat := fun _ => none

/-- Default options of `hnco` (`lib/hnco/app/hnco-options.hh:185-258`), except for the function and the size. -/
def exampleFactory (function : Nat) (bvSize : Int) : FactoryOptions where
  function := function
  bvSize := bvSize
  threshold := 10
  numTraps := 10
  prefixLength := 2
  categorical := 0

/-- An empty file. -/
def emptyFile : InstanceFile Rat where
  text := []
  archive := none

example : 0 < (exampleFactory 31 100).bvSize ∧ (exampleFactory 31 100).function ∈ constructedIds ∧
    (exampleFactory 31 100).Accepted ∧ (exampleFactory 31 100).Safe exampleLib :=
  ⟨by decide, by decide, by constructor <;> simp [exampleFactory], by constructor <;> simp [exampleFactory]⟩

example : (exampleFactory 110 100).Accepted ∧ ¬ (exampleFactory 110 101).Accepted :=
  ⟨by constructor <;> simp [exampleFactory] <;> norm_num, fun h => absurd (h.trap rfl) (by decide)⟩

example : (exampleFactory 140 100).Accepted ∧ ¬ (exampleFactory 120 100).Accepted := by
  refine ⟨by constructor <;> simp [exampleFactory] <;> norm_num, fun h => ?_⟩
  obtain ⟨d, hd⟩ := h.hiff rfl
  have hd' : (100 : Nat) = 2 ^ d := by
    simp only [exampleFactory] at hd
    exact_mod_cast hd
  have h7 : d < 7 := by
    by_contra hc
    have : 2 ^ 7 ≤ 2 ^ d := Nat.pow_le_pow_right (by omega) (by omega)
    omega
  interval_cases d <;> omega

example : (exampleFactory 2 100).function ∉ constructedIds ++ loadedIds ++ otherIds := by decide

example : makeFunction exampleLib (exampleFactory 5 100) emptyFile = ub :=
  factory_doubling_overflows _ _ _ rfl (by decide)

example : ∃ f, makeFunction exampleLib (exampleFactory 1 1) ⟨[], some (saveReals [3, -5, 7])⟩ = ok (.plain f) ∧ f.size = 3 ∧
    f.eval [true, false, true] = ok 10 := ⟨linearFunction [3, -5, 7], rfl, rfl, by decide +kernel⟩

example : ∃ f, makeFunction exampleLib (exampleFactory 70 1) ⟨"p cnf 2 2\n1 -2 0\n2 0\n".toList, none⟩ = ok (.plain f) ∧
    f.size = 2 ∧ f.eval [true, false] = ok 1 := by
  have h : cnfLoad "p cnf 2 2\n1 -2 0\n2 0\n".toList = ok (2, [[1, -2], [2]]) := by decide +kernel
  refine ⟨satFn maxSatEval (2, [[1, -2], [2]]), ?_, rfl, by decide +kernel⟩
  rw [make_eq (by decide)]
  simp only [makeCase, makeCase2, exampleFactory, h]
  rfl

example : (exampleFactory 171 100).function ∈ [60, 160, 162, 171, 172] := by decide

end Hnco
