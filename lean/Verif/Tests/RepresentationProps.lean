import Verif.Representation.IntegerProps
import Verif.Representation.ValueProps
import Verif.Tests.LiveLemmas
import Verif.Tests.RepresentationModel
import Verif.Tests.SerializeProps

/-!
# The test programs on representations (C103)
-/

namespace Hnco.Tests

open Outcome

/-! ## Dyadic integers -/

section
variable {w : Nat} {ceilLog2 : Nat → Nat}

/-- The computed logarithms are positive and less than the number of bits of the type. -/
def LogFits (w : Nat) (ceilLog2 : Nat → Nat) : Prop := ∀ m : Nat, 2 ≤ m → (m : Int) < 2 ^ (w - 1) → 0 < ceilLog2 m ∧ ceilLog2 m < w

theorem dyadicExact_returns (hlog : LogFits w ceilLog2) {a b : Int} (ha : InType w a) (hb : InType w b) (h : a < b)
    (hd : InType w (b - a + 1)) : (dyadicExact w ceilLog2 a b).Returns (fun r => r.lower = a ∧ r.upper = b ∧ r.size = ceilLog2 (b - a + 1).toNat) := by
  have hp := two_pow_pos_int (w - 1)
  have hd' : InType w (b - a) := ⟨by have := hd.1; omega, by have := hd.2; omega⟩
  obtain ⟨h1, h2⟩ := hlog (b - a + 1).toNat (by omega) (by have := hd.2; omega)
  refine ⟨⟨w, ceilLog2 (b - a + 1).toNat, ceilLog2 (b - a + 1).toNat, a, b⟩, ?_, rfl, rfl, rfl⟩
  unfold dyadicExact dyadicExactSize
  rw [differenceIsSafe_spec ha hb h, if_neg (by have := hd.2; omega), decide_eq_true hd', checked_ok hd', decide_eq_true h]
  simp only [assert_true, ok_bind]
  rw [checked_ok hd, ok_bind, decide_eq_true h1, decide_eq_true h2]
  rfl

theorem integersInside_eq (hw : w ≤ 64) {a b : Int} (ha : InType w a) (hb : InType w b) {r : DyadicInteger}
    (hr : dyadicExact w ceilLog2 a b = ok r) {bv : BV} : ∀ count start : Nat, start + count * r.size ≤ bv.length →
    integersInside r bv a b count start = ok true
  | 0, _, _ => rfl
  | count + 1, start, h => by
    have hc : r.Constructed w ceilLog2 := Or.inr (Or.inl ⟨a, b, ha, hb, hr⟩)
    have hl : r.lower = a ∧ r.upper = b := by
      unfold dyadicExact at hr
      obtain ⟨e, -, h4⟩ := bind_eq_ok.mp hr
      obtain rfl := Outcome.ok.inj h4
      exact ⟨rfl, rfl⟩
    rw [Nat.succ_mul] at h
    obtain ⟨v, hv, h1, h2, -⟩ := dyadicUnpack_spec hw hc (bv := bv) (start := start) (by omega)
    unfold integersInside
    rw [hv, ok_bind, if_pos ⟨hl.1 ▸ h1, hl.2 ▸ h2⟩]
    exact integersInside_eq hw ha hb hr count _ (by omega)

/-- What is drawn in a turn of the loop. -/
theorem bounds_turn {lo hi : Int} (hlo : InType w lo) (hhi : InType w hi) (hlt : lo < hi) {i j : Nat} (hi' : i ≤ (hi - lo).toNat)
    (hj' : j ≤ (hi - lo).toNat) : InType w (lo + i) ∧ InType w (lo + j) ∧ lo ≤ lo + i ∧ lo + j ≤ hi :=
  ⟨⟨by have := hlo.1; omega, by have := hhi.2; omega⟩, ⟨by have := hlo.1; omega, by have := hhi.2; omega⟩, by omega, by omega⟩

theorem drawBounds_post {lo hi : Int} (hlo : InType w lo) (hhi : InType w hi) (hlt : lo < hi) (hd : InType w (hi - lo + 1)) :
    Sim.Post (drawBounds w lo hi) (fun r => lo ≤ r.1.1 ∧ r.1.1 < r.1.2 ∧ r.1.2 ≤ hi) := by
  refine (Sim.Post.repeatUntil (P := fun r : (Int × Int) × Bool => lo ≤ r.1.1 ∧ r.1.2 ≤ hi ∧ (r.2 = true → r.1.1 < r.1.2)) ?_).mono
    fun r hr => ⟨hr.1.1, hr.1.2.2 hr.2, hr.1.2.1⟩
  refine (Sim.Post.uniformInt (Nat.zero_le _)).bind fun i hi' => (Sim.Post.uniformInt (Nat.zero_le _)).bind fun j hj' => ?_
  obtain ⟨ha, hb, h1, h2⟩ := bounds_turn hlo hhi hlt hi'.2 hj'.2
  refine Sim.Post.bind (P := fun s => s = true → lo + (i : Int) < lo + j) ?_ fun s hs => Sim.Post.pure ⟨h1, h2, hs⟩
  split
  · rename_i hab
    refine Sim.Post.lift ⟨decide (InType w (lo + (j : Int) - (lo + i))), ?_, fun _ => hab⟩
    rw [differenceIsSafe_spec ha hb hab, if_neg]
    rintro ⟨g1, g2⟩
    have := hd.2
    omega
  · exact Sim.Post.pure (by intro h; cases h)

theorem drawBounds_flows {lo hi : Int} (hlo : InType w lo) (hhi : InType w hi) (hlt : lo < hi)
    (hd : InType w (hi - lo + 1)) : Sim.Flows (drawBounds w lo hi) := by
  have hp := two_pow_pos_int (w - 1)
  refine Sim.Flows.repeatUntil ((Sim.Flows.uniformInt _ _).bind fun i => (Sim.Flows.uniformInt _ _).bind fun j =>
    Sim.Flows.bind (Sim.Flows.ite (Sim.Flows.lift _) (Sim.Flows.pure _)) fun _ => Sim.Flows.pure _) ?_ ?_
  · exact Sim.Flows.bind_out (Sim.Flows.uniformInt_nil (Nat.zero_le _))
  · -- the greatest two numbers, whose difference is one
    obtain ⟨N, hN⟩ : ∃ N : Nat, (N : Int) = hi - lo := ⟨(hi - lo).toNat, by omega⟩
    have hi1 : N - 1 ≤ (hi - lo).toNat := by omega
    have hj1 : N ≤ (hi - lo).toNat := by omega
    obtain ⟨ha, hb, -, -⟩ := bounds_turn hlo hhi hlt hi1 hj1
    have hab : lo + ((N - 1 : Nat) : Int) < lo + (N : Int) := by omega
    refine ⟨((lo + ((N - 1 : Nat) : Int), lo + (N : Int)), true), ?_, rfl⟩
    refine (Sim.Reaches.uniformInt (Nat.zero_le _) hi1).bind ((Sim.Reaches.uniformInt (Nat.zero_le _) hj1).bind ?_)
    refine Sim.Reaches.bind (a := true) ?_ (Sim.Reaches.pure _)
    rw [if_pos hab]
    refine Sim.Reaches.lift ?_
    have := hd.2
    rw [differenceIsSafe_spec ha hb hab, if_neg (by omega), decide_eq_true]
    exact ⟨by omega, by omega⟩

/-- C103: the test of dyadic integer representations, with bounds drawn in an interval whose size is a number of the type, has ended
with the status 0, or asks for another draw and can still end with this status. -/
theorem dyadicIntegerTest_lives (hw : w ≤ 64) (hlog : LogFits w ceilLog2) (runs vars : Nat) {lo hi : Int} (hlo : InType w lo)
    (hhi : InType w hi) (hlt : lo < hi) (hd : InType w (hi - lo + 1)) (hv : 1 ≤ vars) :
    Lives (dyadicIntegerTest w ceilLog2 runs vars lo hi) := by
  have key : ∀ bounds : (Int × Int) × Bool, lo ≤ bounds.1.1 ∧ bounds.1.1 < bounds.1.2 ∧ bounds.1.2 ≤ hi →
      InType w bounds.1.1 ∧ InType w bounds.1.2 ∧ InType w (bounds.1.2 - bounds.1.1 + 1) := fun b hb =>
    ⟨⟨by have := hlo.1; omega, by have := hhi.2; omega⟩, ⟨by have := hlo.1; omega, by have := hhi.2; omega⟩,
      ⟨by have := two_pow_pos_int (w - 1); omega, by have := hd.2; omega⟩⟩
  refine lives_every (succeeds_every ((Sim.Post.uniformInt hv).bind fun count hc => (drawBounds_post hlo hhi hlt hd).bind
    fun bounds hb => ?_) runs) ((Sim.Flows.uniformInt _ _).bind fun count => (drawBounds_flows hlo hhi hlt hd).bind fun bounds =>
    (Sim.Flows.lift _).bind fun r => (bvRandomBits_flows _).bind fun _ => Sim.Flows.lift _)
  obtain ⟨h1, h2, h3⟩ := key bounds hb
  obtain ⟨r, e, -⟩ := dyadicExact_returns hlog h1 h2 hb.2.1 h3
  refine (Sim.Post.lift (P := fun q => q = r) ⟨r, e, rfl⟩).bind fun q hq => (bvRandomBits_post _).bind fun bv hbv => ?_
  subst hq
  exact Sim.Post.lift ⟨true, integersInside_eq hw h1 h2 e count 0 (by omega), rfl⟩

example : LogFits 64 (Nat.clog 2) ∧ InType 64 (-1000) ∧ InType 64 1000 ∧ InType 64 (1000 - -1000 + 1) := by
  refine ⟨fun m h1 h2 => ⟨Nat.clog_pos (by omega) h1, ?_⟩, by decide, by decide, by decide⟩
  have : m ≤ 2 ^ 63 := by have h3 : (m : Int) < 2 ^ 63 := h2; exact_mod_cast h3.le
  exact lt_of_le_of_lt (Nat.clog_le_of_le_pow this) (by omega)

/-- Two variables between −3 and 4, after a first pair of bounds which is refused. -/
example : exitStatus (dyadicIntegerTest 64 (Nat.clog 2) 1 2 (-1000) 1000) [1, 5, 5, 997, 1004, 0, 1, 1, 0, 1, 0] = .ok 0 [] := by
  decide +kernel

theorem PostOk.repeatUntil {α : Type} {body : Sim α} {stop : α → Bool} {P : α → Prop} (h : Sim.PostOk body P) :
    Sim.PostOk (Sim.repeatUntil body stop) P := by
  have : ∀ k, Sim.PostOk (Sim.repeatGo body stop k) P := by
    intro k
    induction k with
    | zero => intro ds a rest e; cases e
    | succ k ih =>
      refine h.bind fun a ha => ?_
      cases stop a with
      | true => exact Sim.PostOk.pure ha
      | false => exact ih
  exact fun ds => this (ds.length + 1) ds

theorem every_postOk {body : Sim Bool} (h : Sim.PostOk body (fun b => b = true)) :
    ∀ runs, Sim.PostOk (every runs body) (fun b => b = true)
  | 0 => Sim.PostOk.pure rfl
  | runs + 1 => h.bind fun b hb => by subst hb; exact every_postOk h runs

/-- C103: whatever the bounds of the type between which it draws, and whatever the computed logarithms, the test of dyadic integer
representations does not end with a status other than 0. -/
theorem dyadicIntegerTest_status (hw : w ≤ 64) (runs vars : Nat) {lo hi : Int} (hlo : InType w lo) (hhi : InType w hi) (hlt : lo < hi)
    (hv : 1 ≤ vars) (ds : List Nat) (s : Nat) (rest : List Nat)
    (h : exitStatus (dyadicIntegerTest w ceilLog2 runs vars lo hi) ds = .ok s rest) : s = 0 := by
  have hb : Sim.PostOk (drawBounds w lo hi) (fun r => InType w r.1.1 ∧ InType w r.1.2) := by
    refine PostOk.repeatUntil ((Sim.Post.uniformInt (Nat.zero_le _)).toOk.bind fun i hi' =>
      (Sim.Post.uniformInt (Nat.zero_le _)).toOk.bind fun j hj' => (Sim.PostOk.trivial _).bind fun s _ => ?_)
    obtain ⟨h1, h2, -, -⟩ := bounds_turn hlo hhi hlt hi'.2 hj'.2
    exact Sim.PostOk.pure ⟨h1, h2⟩
  have hrun : Sim.PostOk (dyadicIntegerRun w ceilLog2 vars lo hi) (fun b => b = true) := by
    refine (Sim.Post.uniformInt hv).toOk.bind fun count _ => hb.bind fun bounds hbd => (Sim.PostOk.lift (fun r hr => hr)).bind
      fun r hr => (bvRandomBits_post _).toOk.bind fun bv hbv => Sim.PostOk.lift fun b hbe => ?_
    rw [integersInside_eq hw hbd.1 hbd.2 hr count 0 (by omega)] at hbe
    exact (Outcome.ok.inj hbe).symm
  have : Sim.PostOk (exitStatus (dyadicIntegerTest w ceilLog2 runs vars lo hi)) (fun s => s = 0) :=
    (every_postOk hrun runs).bind fun b hb => by subst hb; exact Sim.PostOk.pure rfl
  exact this ds s rest h

/-- With the bounds of the program, when it draws the numbers 0 and 1. -/
example : exitStatus (dyadicIntegerTest 64 (Nat.clog 2) 1 1 (-2 ^ 63) (2 ^ 63 - 1)) [0, 2 ^ 63, 2 ^ 63 + 1, 1] = .ok 0 [] := by
  decide +kernel

/-- C103: with the bounds of the program, the least and the greatest number of `long`, it can draw bounds with which an addition or a
subtraction overflows: the least number with 0, in `difference_is_safe`, and 0 with the greatest number, in the constructor. -/
theorem dyadicIntegerTest_overflows (ceilLog2 : Nat → Nat) :
    exitStatus (dyadicIntegerTest 64 ceilLog2 100 100 (-2 ^ 63) (2 ^ 63 - 1)) [0, 0, 2 ^ 63] = .ub ∧
    exitStatus (dyadicIntegerTest 64 ceilLog2 100 100 (-2 ^ 63) (2 ^ 63 - 1)) [0, 2 ^ 63, 2 ^ 64 - 1] = .ub := by
  constructor <;> rfl

end

/-! ## Dyadic floats -/

section
variable {K : Type} [Field K] [LinearOrder K] [IsStrictOrderedRing K]

theorem floatsInside_eq {a b : K} {size : Int} {r : DyadicFloat K} (hr : floatWithSize a b size = ok r) {bv : BV} :
    ∀ count start : Nat, start + count * r.lengths.length ≤ bv.length → floatsInside r bv a b count start = ok true
  | 0, _, _ => rfl
  | count + 1, start, h => by
    rw [Nat.succ_mul] at h
    obtain ⟨v, hv, h1, h2, -⟩ := floatUnpack_range hr (bv := bv) (start := start) (by omega)
    unfold floatsInside
    rw [hv, ok_bind, if_pos ⟨h1, h2⟩]
    exact floatsInside_eq hr count _ (by omega)

/-- C103: the test of dyadic float representations ends with the status 0 when the numbers are computed exactly. -/
theorem dyadicFloatTest_ends (normal uniform : Nat → K) (hu : ∀ d, 0 ≤ uniform d) (runs vars bits : Nat) (hv : 1 ≤ vars)
    (hb : 1 ≤ bits) : Ends (dyadicFloatTest normal uniform runs vars bits) := by
  refine (succeeds_every ((Sim.Post.uniformInt hv).bind fun count hc => (Sim.Post.uniformInt hb).bind fun size hs =>
    (number_exactly normal).1.bind fun x _ => (number_exactly normal).1.bind fun y _ => (number_exactly uniform).1.bind
    fun u hu' => ?_) runs).ends (every_bounded (Sim.Uses.uniformInt_bind fun count _ _ => Sim.Uses.uniformInt_bind fun size _ _ =>
      ⟨1 + (1 + (1 + (0 + (count * size + 0)))), (number_uses normal).bind fun _ => (number_uses normal).bind fun _ =>
      (number_uses uniform).bind fun _ => Sim.Uses.lift.bind fun _ => (bvRandomBits_uses _).bind fun _ => Sim.Uses.lift⟩) runs)
  obtain ⟨d, rfl⟩ := hu'
  have hlt : (1 + 10 * |x|) * y < (1 + 10 * |x|) * y + (1 + 10 * |x|) * (1 + uniform d) := by
    have h1 := abs_nonneg x
    have h2 := hu d
    have : 0 < (1 + 10 * |x|) * (1 + uniform d) := by positivity
    linarith
  obtain ⟨r, hr⟩ := floatUnpack_spec.1.mpr ⟨hlt, (by omega : (0 : Int) < (size : Int))⟩
  have hl := (floatUnpack_spec.2 r hr).1
  refine (Sim.Post.lift (P := fun q => q = r) ⟨r, hr, rfl⟩).bind fun q hq => (bvRandomBits_post _).bind fun bv hbv => ?_
  subst hq
  refine Sim.Post.lift ⟨true, floatsInside_eq hr count 0 ?_, rfl⟩
  rw [hbv, show q.lengths.length = size by omega]
  omega

example : exitStatus (dyadicFloatTest (K := Rat) (fun d => d - 1) (fun d => d / 10) 1 2 3) [1, 1, 0, 3, 5, 1, 1, 0, 1] = .ok 0 [] := by
  decide +kernel

end

end Hnco.Tests
