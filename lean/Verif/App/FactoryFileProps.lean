import Verif.App.FactoryFileSpec
import Verif.App.FactoryProps
import Verif.App.FfgenProps
import Verif.Function.SudokuFileProps
import Verif.Representation.AdapterProps

/-!
# From `ffgen` to `hnco`

C82: the functions which are made from saved instances, and from the instances written by `ffgen`.
-/

namespace Hnco

open Outcome

variable {K : Type} [Field K] [LinearOrder K]

/-! ## Saved instances -/

theorem read_saved {α : Type} {save : α → List (Tok K)} {reader : Reader K α} {x : α} (h : RoundTrip save reader x)
    {file : InstanceFile K} (hf : file.archive = some (save x)) : file.read reader = ok x := by
  have := h []
  rw [List.append_nil] at this
  unfold InstanceFile.read
  rw [hf]
  simp only
  rw [this]
  rfl

theorem loads_with {lib : FactoryLib K} {o : FactoryOptions} {file : InstanceFile K} {n : Nat} {value : BV → K} (f : Fn K)
    (h1 : ∀ (o' : FactoryOptions) (m : Nat), o'.function = o.function → makeCase lib o' m file = ok (.plain f))
    (h2 : f.size = n) (h3 : f.Sound) (h4 : ∀ x : BV, x.length = n → f.eval x = ok (value x)) :
    LoadsWith lib o file n value := by
  refine ⟨f, fun size hs => ?_, h2, h3, h4⟩
  rw [make_eq (by simpa using hs)]
  exact h1 _ _ rfl

theorem exists_ofFn' {α : Type} (l : List α) : l = List.ofFn fun i : Fin l.length => l[i.val] := by
  apply List.ext_getElem <;> simp

section
variable [IsStrictOrderedRing K]

theorem linear_list_value (w : List K) (x : BV) (hx : x.length = w.length) :
    (linearFunction w).eval x = ok (∑ i ∈ Finset.range w.length, if x[i]? = some true then entry w i else 0) := by
  have hx' : x = List.ofFn fun i : Fin w.length => x[i.val] := by
    apply List.ext_getElem <;> simp [hx]
  have := linear_value (fun i : Fin w.length => w[i.val]) (fun i : Fin w.length => x[i.val])
  rw [← exists_ofFn' w, ← hx'] at this
  rw [this, Finset.sum_range]
  congr 1
  refine Finset.sum_congr rfl fun i _ => ?_
  have hi : i.val < x.length := by omega
  simp [entry, hi]

theorem walsh1_list_value (w : List K) (x : BV) (hx : x.length = w.length) :
    (walshExpansion1 w).eval x = ok (∑ i ∈ Finset.range w.length, entry w i * spin K x i) := by
  have hx' : x = List.ofFn fun i : Fin w.length => x[i.val] := by
    apply List.ext_getElem <;> simp [hx]
  have := walsh1_value (fun i : Fin w.length => w[i.val]) (fun i : Fin w.length => x[i.val])
  rw [← exists_ofFn' w, ← hx'] at this
  rw [this, Finset.sum_range]
  congr 1
  refine Finset.sum_congr rfl fun i _ => ?_
  have hi : i.val < x.length := by omega
  simp [entry, spin, hi]

/-- C82: the functions given by a vector of numbers: a saved vector is read as the function which has these numbers. -/
theorem factory_saved_vectors (lib : FactoryLib K) (o : FactoryOptions) (file : InstanceFile K) (w : List K)
    (hf : file.archive = some (saveReals w)) :
    (o.function = 1 → LoadsWith lib o file w.length fun x =>
      ∑ i ∈ Finset.range w.length, if x[i]? = some true then entry w i else 0) ∧
    (o.function = 90 → LoadsWith lib o file w.length fun x => -|(side w x true).prod - (side w x false).prod|) ∧
    (o.function = 161 → LoadsWith lib o file w.length fun x => ∑ i ∈ Finset.range w.length, entry w i * spin K x i) := by
  have hr := read_saved (functions_roundTrip.1 w) hf
  refine ⟨fun h => ?_, fun h => ?_, fun h => ?_⟩
  · refine loads_with (linearFunction w) (fun o' m h' => ?_) rfl
      ⟨declares_total (linear_maximum _), fun _ => linear_maximum _, fun _ => linear_incremental _⟩
      fun x hx => linear_list_value w x hx
    simp only [makeCase, h', h, hr, ok_bind]
  · refine loads_with (equalProductsFn w) (fun o' m h' => ?_) rfl (ofEval_sound fun x hx => ⟨_, equalProducts_value w x hx⟩)
      fun x hx => equalProducts_value w x hx
    simp only [makeCase, makeCase2, h', h, hr, ok_bind]
  · refine loads_with (walshExpansion1 w) (fun o' m h' => ?_) rfl
      ⟨declares_total (walsh1_maximum _), fun _ => walsh1_maximum _, fun _ => walsh1_incremental _⟩
      fun x hx => walsh1_list_value w x hx
    simp only [makeCase, makeCase2, makeCase3, h', h, hr, ok_bind]

/-- C82: a saved partition is read as the function which has these numbers. -/
theorem factory_saved_partition (lib : FactoryLib K) (o : FactoryOptions) (file : InstanceFile K) (w : List Int)
    (hf : file.archive = some (saveInts w)) (h : o.function = 91) :
    LoadsWith lib o file w.length fun x => -|((side w x true).sum : K) - (side w x false).sum| := by
  have hr := read_saved (functions_roundTrip.2.1 w) hf
  have hv : ∀ x : BV, x.length = w.length → (partitionFn w : Fn K).eval x =
      ok (-|((side w x true).sum : K) - (side w x false).sum|) := fun x hx => by
    show (do let v ← partitionEval w x; ok (v : K)) = _
    rw [partition_value w x hx, ok_bind]
    push_cast
    rfl
  refine loads_with (partitionFn w) (fun o' m h' => ?_) rfl (ofEval_sound fun x hx => ⟨_, hv x hx⟩) hv
  simp only [makeCase, makeCase2, h', h, hr, ok_bind]

/-- C82: a saved Walsh expansion is read as the sum of its terms. -/
theorem factory_saved_walsh (lib : FactoryLib K) (o : FactoryOptions) (file : InstanceFile K) (terms : List (WalshTerm K))
    (n : Nat) (hne : terms ≠ []) (hn : ∀ t ∈ terms, t.feature.length = n) (hf : file.archive = some (saveWalsh terms))
    (h : o.function = 160) :
    LoadsWith lib o file n fun x => (terms.map fun t => walshSign K x t.feature * t.coefficient).sum := by
  have hr := read_saved (functions_roundTrip.2.2.2.2.2.1 terms) hf
  have hv : ∀ x : BV, x.length = n → (Fn.ofEval n (walshExpansionEval terms)).eval x =
      ok (terms.map fun t => walshSign K x t.feature * t.coefficient).sum :=
    fun x hx => walshExpansionEval_eq terms x fun t ht => by rw [hn t ht, hx]
  refine loads_with (Fn.ofEval n (walshExpansionEval terms)) (fun o' m h' => ?_) rfl (ofEval_sound fun x hx => ⟨_, hv x hx⟩) hv
  obtain ⟨t, rest, rfl⟩ := List.exists_cons_of_ne_nil hne
  simp only [makeCase, makeCase2, makeCase3, h', h, hr, ok_bind, walshFn]
  rw [vget_eq (i := 0) (by simp)]
  simp only [ok_bind, List.getElem_cons_zero]
  rw [hn t (by simp)]

/-- C82: a saved Walsh expansion of degree 2 is read as the sum of its terms. -/
theorem factory_saved_walsh2 (lib : FactoryLib K) (o : FactoryOptions) (file : InstanceFile K) (linear : List K)
    (quadratic : List (List K)) (n : Nat) (h1 : linear.length = n) (h2 : quadratic.map List.length = List.range n)
    (hf : file.archive = some (saveWalsh2 (linear, quadratic))) (h : o.function = 162) :
    LoadsWith lib o file n fun x => ∑ i ∈ Finset.range n, entry linear i * spin K x i +
      ∑ i ∈ Finset.range n, ∑ j ∈ Finset.range i, gridEntry quadratic i j * spin K x i * spin K x j := by
  have hr := read_saved (functions_roundTrip.2.2.2.2.2.2 (linear, quadratic)) hf
  have hl : quadratic.length = n := by simpa using congrArg List.length h2
  have hv := fun (x : BV) (hx : x.length = n) => walshExpansion2_value linear quadratic n x h1 hl hx fun i line hi => by
    have hin : i < n := hl ▸ (List.getElem?_eq_some_iff.mp hi).1
    have := congrArg (fun l => l[i]?) h2
    simp only [List.getElem?_map, hi, Option.map_some, List.getElem?_range hin] at this
    exact Option.some.inj this
  refine loads_with (walsh2Fn (linear, quadratic)) (fun o' m h' => ?_) hl
    (ofEval_sound fun x hx => ⟨_, hv x (by rw [hx]; exact hl)⟩) hv
  simp only [makeCase, makeCase2, makeCase3, h', h, hr, ok_bind]

/-- C82: a saved Ising model in one dimension is read as this model. -/
theorem factory_saved_ising1 (lib : FactoryLib K) (o : FactoryOptions) (file : InstanceFile K) (m : Ising1 K) (n : Nat)
    (hn : 0 < n) (h1 : m.coupling.length = n) (h2 : m.field.length = n) (hf : file.archive = some (saveIsing1 m))
    (h : o.function = 171) :
    LoadsWith lib o file n fun x =>
      ∑ i ∈ Finset.range (n - 1), entry m.coupling i * spin K x i * spin K x (i + 1) +
      (if m.periodic then entry m.coupling (n - 1) * spin K x (n - 1) * spin K x 0 else 0) +
      ∑ i ∈ Finset.range n, entry m.field i * spin K x i := by
  have hr := read_saved (functions_roundTrip.2.2.2.1 m) hf
  have hv := ising1_value m n hn h1 h2
  refine loads_with (ising1Fn m) (fun o' m h' => ?_) h1 ⟨fun x hx => ⟨_, hv x (by rw [hx]; exact h1)⟩, fun h => (by cases h),
    fun _ => ⟨rfl, fun x y v flips hx hy hs hi hfl hxv => ?_⟩⟩ hv
  · simp only [makeCase, makeCase2, makeCase3, h', h, hr, ok_bind]
  · change x.length = m.coupling.length at hx
    change y.length = m.coupling.length at hy
    change ∀ i ∈ flips, i < m.coupling.length at hi
    rw [h1] at hx hy hi
    obtain ⟨w, e1, e2⟩ := ising1_incremental m n hn h1 h2 x y v flips hx hy hs hi hfl hxv
    refine ⟨w, ?_, e2⟩
    simp only [ising1Fn]
    rw [h1, e1, ok_bind]

/-- C82: a saved Ising model in two dimensions is read as this model. -/
theorem factory_saved_ising2 (lib : FactoryLib K) (o : FactoryOptions) (file : InstanceFile K) (m : Ising2 K)
    (rows columns : Nat) (hr0 : 0 < rows) (hc0 : 0 < columns) (h1 : GridShape m.right rows columns)
    (h2 : GridShape m.below rows columns) (h3 : GridShape m.field rows columns) (hf : file.archive = some (saveIsing2 m))
    (h : o.function = 172) :
    LoadsWith lib o file (rows * columns) fun x =>
      ∑ i ∈ Finset.range rows, ∑ j ∈ Finset.range (columns - 1),
        gridEntry m.right i j * spin K x (i * columns + j) * spin K x (i * columns + (j + 1)) +
      ∑ i ∈ Finset.range (rows - 1), ∑ j ∈ Finset.range columns,
        gridEntry m.below i j * spin K x (i * columns + j) * spin K x ((i + 1) * columns + j) +
      (if m.periodic then
        ∑ i ∈ Finset.range rows, gridEntry m.right i (columns - 1) *
          spin K x (i * columns + (columns - 1)) * spin K x (i * columns) +
        ∑ j ∈ Finset.range columns, gridEntry m.below (rows - 1) j *
          spin K x ((rows - 1) * columns + j) * spin K x j else 0) +
      ∑ i ∈ Finset.range rows, ∑ j ∈ Finset.range columns,
        gridEntry m.field i j * spin K x (i * columns + j) := by
  have hr := read_saved (functions_roundTrip.2.2.2.2.1 m) hf
  have hv := ising2_value m rows columns hr0 hc0 h1 h2 h3
  refine loads_with (ising2FnOf m (rows * columns)) (fun o' _ h' => ?_) rfl ⟨fun x hx => ⟨_, hv x hx⟩, fun h => (by cases h),
    fun _ => ⟨rfl, fun x y v flips hx hy hs hi hfl hxv => ?_⟩⟩ hv
  · simp only [makeCase, makeCase2, makeCase3, h', h, hr, ok_bind, ising2Fn, ising2Size_eq m rows columns hr0 h3]
  · obtain ⟨w, e1, e2⟩ := ising2_incremental m rows columns hr0 hc0 h1 h2 h3 x y v flips hx hy hs hi hfl hxv
    refine ⟨w, ?_, e2⟩
    simp only [ising2FnOf]
    rw [e1, ok_bind]

/-- C82: a saved NK landscape is read as this landscape: the mean over the sites of the entries selected by the neighbours. -/
theorem factory_saved_nk (lib : FactoryLib K) (o : FactoryOptions) (file : InstanceFile K) (nk : Nk K) (n k : Nat)
    (hn : 0 < n) (hv : NkValid n k nk) (hf : file.archive = some (saveNk nk)) (h : o.function = 60) :
    ∃ value : BV → K, LoadsWith lib o file n value ∧ ∀ x : BV, x.length = n → ∃ terms : List K, value x = terms.sum / n ∧
      terms.length = n ∧ ∀ i, i < n → ∃ row table v, nk.neighbors[i]? = some row ∧ nk.partials[i]? = some table ∧
        terms[i]? = some v ∧ NkTerm x row table v := by
  have hr := read_saved (functions_roundTrip.2.2.1 nk) hf
  have hx := fun (x : BV) (hx : x.length = n) => nkEval_spec hv hn hx
  classical
  refine ⟨fun x => if hx' : x.length = n then (Classical.choose (hx x hx')).sum / n else 0, ?_, ?_⟩
  · have hev : ∀ x : BV, x.length = n → (nkFn nk).eval x =
        ok (if hx' : x.length = n then (Classical.choose (hx x hx')).sum / n else 0) := fun x hx' => by
      rw [dif_pos hx']
      exact (Classical.choose_spec (hx x hx')).1
    refine loads_with (nkFn nk) (fun o' _ h' => ?_) hv.tables (ofEval_sound fun x hx' => ⟨_, hev x (by rw [hx', hv.tables])⟩) hev
    simp only [makeCase, h', h, hr, ok_bind]
  · intro x hx'
    simp only [dif_pos hx']
    exact ⟨_, rfl, (Classical.choose_spec (hx x hx')).2⟩

/-! ## Files in text format -/

omit [Field K] [LinearOrder K] [IsStrictOrderedRing K] in
theorem clauses_refused (l : List (List Int)) (h : ¬ ∀ clause ∈ l, clause.length = 3) :
    forEach l (fun clause (u : Unit) => if clause.length ≠ 3 then Outcome.throw .runtimeError else ok u) () =
      Outcome.throw .runtimeError := by
  induction l with
  | nil => simp at h
  | cons a l ih =>
    rw [forEach]
    by_cases ha : a.length = 3
    · rw [if_neg (by simpa using ha), ok_bind]
      exact ih fun hl => h fun c hc => (List.mem_cons.mp hc).elim (fun e => e ▸ ha) (hl c)
    · rw [if_pos ha]
      rfl

/-- C82: a text which is read as a CNF formula gives the function which counts the satisfied clauses. -/
theorem factory_text_sat (lib : FactoryLib K) (o : FactoryOptions) (file : InstanceFile K) (n : Nat) (e : List (List Int))
    (hf : cnfLoad file.text = ok ((n : Int), e)) :
    (o.function = 70 → LoadsWith lib o file n fun x =>
      ((e.countP fun clause => ∃ lit ∈ clause, LitTrue x lit : Nat) : K)) ∧
    (o.function = 71 → (∀ clause ∈ e, clause.length = 3) → LoadsWith lib o file n fun x =>
      ((e.countP fun clause => (∃ lit ∈ clause, LitTrue x lit) ∧ ∃ lit ∈ clause, ¬ LitTrue x lit : Nat) : K)) ∧
    (o.function = 71 → (¬ ∀ clause ∈ e, clause.length = 3) → makeFunction lib o file = .throw .runtimeError) := by
  have hr := (cnfLoad_range file.text n e hf).2
  rw [Int.toNat_natCast] at hr
  refine ⟨fun h => ?_, fun h h3 => ?_, fun h h3 => ?_⟩
  · have hv : ∀ x : BV, x.length = n → (satFn maxSatEval ((n : Int), e) : Fn K).eval x =
        ok ((e.countP fun clause => ∃ lit ∈ clause, LitTrue x lit : Nat) : K) := fun x hx => by
      show (do let v ← maxSatEval e x; ok (v : K)) = _
      rw [maxSat_value e x (by rw [hx]; exact hr), ok_bind]
    refine loads_with (satFn maxSatEval ((n : Int), e)) (fun o' _ h' => ?_) rfl (ofEval_sound fun x hx => ⟨_, hv x hx⟩) hv
    simp only [makeCase, makeCase2, h', h, hf, ok_bind]
  · have hv : ∀ x : BV, x.length = n → (satFn maxNae3SatEval ((n : Int), e) : Fn K).eval x =
        ok ((e.countP fun clause => (∃ lit ∈ clause, LitTrue x lit) ∧ ∃ lit ∈ clause, ¬ LitTrue x lit : Nat) : K) :=
        fun x hx => by
      show (do let v ← maxNae3SatEval e x; ok (v : K)) = _
      rw [maxNae3Sat_value e x (by rw [hx]; exact hr) h3, ok_bind]
    refine loads_with (satFn maxNae3SatEval ((n : Int), e)) (fun o' _ h' => ?_) rfl (ofEval_sound fun x hx => ⟨_, hv x hx⟩) hv
    simp only [makeCase, makeCase2, h', h, (nae3Load_iff file.text n e).mpr ⟨hf, h3⟩, ok_bind]
  · by_cases h0 : o.bvSize ≤ 0
    · exact factory_no_size lib o file h0
    · rw [make_eq (by omega)]
      simp only [makeCase, makeCase2, h]
      unfold nae3Load
      rw [hf, ok_bind, clauses_refused e h3]
      rfl

/-- C82: a QUBO file with at most one element at each position gives minus the quadratic form. -/
theorem factory_text_qubo (lib : FactoryLib K) (o : FactoryOptions) (file : InstanceFile K) (dim : Nat)
    (es : List (Nat × Nat × K)) (hf : IsQuboFile lib.readFloat file.text dim es)
    (hnd : (es.map fun e => (e.1, e.2.1)).Nodup) (h : o.function = 50) :
    LoadsWith lib o file dim fun x => -(es.map fun e => e.2.2 * bitVal K x e.1 * bitVal K x e.2.1).sum := by
  obtain ⟨q, hq, hshape⟩ := quboLoad_accepts lib.readFloat [] file.text dim es hf
  have hv : ∀ x : BV, x.length = dim → quboEval q x =
      ok (-(es.map fun e => e.2.2 * bitVal K x e.1 * bitVal K x e.2.1).sum) := fun x hx => by
    obtain ⟨q', e1, e2⟩ := quboLoad_value lib.readFloat [] file.text dim es hf hnd x hx
    rw [hq] at e1
    cases e1
    exact e2
  refine loads_with (quboFn q) (fun o' _ h' => ?_) hshape.1.1 (ofEval_sound fun x hx => ⟨_, hv x (by rw [hx, hshape.1.1])⟩) hv
  simp only [makeCase, h', h, hq, ok_bind]

/-! ## Sudoku -/

theorem flatten_slice (enc : Nat → BV) (s : Nat) (henc : ∀ d, (enc d).length = s) :
    ∀ (l : List Nat) (i : Nat) (d : Nat), l[i]? = some d → sliceOf (l.map enc).flatten (i * s) s = enc d := by
  intro l
  induction l with
  | nil => intro i d h; simp at h
  | cons a l ih =>
    intro i d h
    cases i with
    | zero =>
      simp only [List.getElem?_cons_zero, Option.some.injEq] at h
      subst h
      simp [sliceOf, henc]
    | succ i =>
      have := ih i d (by simpa using h)
      rw [← this]
      unfold sliceOf
      rw [List.map_cons, List.flatten_cons, Nat.succ_mul, Nat.add_comm, ← List.drop_drop, List.drop_left' (henc a)]

theorem flatten_size (enc : Nat → BV) (s : Nat) (henc : ∀ d, (enc d).length = s) (l : List Nat) :
    (l.map enc).flatten.length = l.length * s := by
  induction l with
  | nil => simp
  | cons a l ih => simp [ih, henc, Nat.succ_mul, Nat.add_comm]

/-- Sudoku behind an adapter with the same representation of nine digits for each empty cell. -/
theorem sudoku_playable (s : Sudoku) (hs : SudokuReady s) (rep : Rep Nat) (hd : rep.Decodes)
    (hrange : ∀ (bv : BV) (d : Nat), bv.length = rep.size → rep.unpack bv 0 = ok d → d < 9)
    (honto : ∀ d < 9, ∃ bv : BV, bv.length = rep.size ∧ rep.unpack bv 0 = ok d) :
    SudokuPlayable K s (List.replicate (emptyCells s.problem).length rep) := by
  have hdec : ∀ r ∈ List.replicate (emptyCells s.problem).length rep, r.Decodes := fun r hr => by
    rw [List.eq_of_mem_replicate hr]; exact hd
  have hsizes : ((List.replicate (emptyCells s.problem).length rep).map Rep.size).sum =
      (emptyCells s.problem).length * rep.size := by simp
  have hstart : ∀ i < (emptyCells s.problem).length,
      sliceStart 0 ((List.replicate (emptyCells s.problem).length rep).map Rep.size) i = i * rep.size := fun i hi => by
    simp [sliceStart, Nat.min_eq_left (Nat.le_of_lt hi)]
  have hdigits : ∀ (bv : BV) (values : List Nat), bv.length = (emptyCells s.problem).length * rep.size →
      DecodedFrom (List.replicate (emptyCells s.problem).length rep) bv 0 values →
      values.length = (emptyCells s.problem).length ∧ ∀ v ∈ values, v < 9 := by
    intro bv values hbv ⟨h1, h2⟩
    refine ⟨by simpa using h1, fun v hv => ?_⟩
    obtain ⟨i, hi, he⟩ := List.mem_iff_getElem.mp hv
    have hi' : i < (emptyCells s.problem).length := by simpa [h1] using hi
    obtain ⟨v', e1, e2⟩ := h2 i rep (by rw [List.getElem?_replicate, if_pos hi'])
    rw [List.getElem?_eq_getElem hi, he] at e1
    cases e1
    refine hrange _ v ?_ e2
    rw [hstart i hi']
    have : (i + 1) * rep.size ≤ (emptyCells s.problem).length * rep.size := Nat.mul_le_mul_right _ hi'
    rw [Nat.succ_mul] at this
    simp only [sliceOf, List.length_take, List.length_drop]
    omega
  refine ⟨hs, by simp, ?_, ?_⟩
  · intro vars bv hvars hbv
    obtain ⟨_, _, h3⟩ := multivariateEvaluate_spec (sudokuEval s) (fun r => ok ((r.1 : K), r.2)) hdec hvars bv
    obtain ⟨values, e1, e2, e3⟩ := h3 hbv
    obtain ⟨g1, g2⟩ := hdigits bv values (by rw [hbv, hsizes]) e1
    obtain ⟨v, s', f1, f2, f3⟩ := sudoku_zero_iff s hs values g1 g2
    refine ⟨v, s', ?_, f2, f3, sudoku_ready_again s hs values g1 g2 v s' f1⟩
    unfold sudokuFnEval
    rw [e3, f1, ok_bind]
  · intro digits hlen h9
    have henc : ∀ d, ∃ bv : BV, bv.length = rep.size ∧ (d < 9 → rep.unpack bv 0 = ok d) := fun d => by
      by_cases hd9 : d < 9
      · obtain ⟨bv, e1, e2⟩ := honto d hd9
        exact ⟨bv, e1, fun _ => e2⟩
      · exact ⟨List.replicate rep.size false, by simp, fun h => absurd h hd9⟩
    choose enc enc1 enc2 using henc
    rw [List.length_replicate] at hlen
    have hbv : (digits.map enc).flatten.length = (emptyCells s.problem).length * rep.size := by
      rw [flatten_size enc rep.size enc1, hlen]
    refine ⟨(digits.map enc).flatten, by rw [hbv, hsizes], fun vars hvars => ?_⟩
    obtain ⟨_, _, h3⟩ := multivariateEvaluate_spec (sudokuEval s) (fun r => ok ((r.1 : K), r.2)) hdec hvars (digits.map enc).flatten
    obtain ⟨values, e1, e2, e3⟩ := h3 (by rw [hbv, hsizes])
    obtain ⟨v, s', f1, -, -⟩ := sudoku_zero_iff s hs digits hlen h9
    have hval : values = digits := by
      apply List.ext_getElem?
      intro i
      by_cases hi : i < (emptyCells s.problem).length
      · obtain ⟨v', k1, k2⟩ := e1.2 i rep (by rw [List.getElem?_replicate, if_pos hi])
        have hdi : digits[i]? = some digits[i] := List.getElem?_eq_getElem (by omega)
        rw [hstart i hi, flatten_slice enc rep.size enc1 digits i _ hdi,
          enc2 _ (h9 _ (List.getElem_mem (n := i) (by omega)))] at k2
        cases k2
        rw [k1, hdi]
      · have : values.length = (emptyCells s.problem).length := by simpa using e1.1
        rw [List.getElem?_eq_none (by omega), List.getElem?_eq_none (by omega)]
    refine ⟨v, s', f1, ?_⟩
    unfold sudokuFnEval
    rw [e3, hval, f1, ok_bind]

/-- C82: every text with nine lines of nine dots or digits is read as a Sudoku which can be evaluated through both categorical
representations; other texts, and other representations, are errors. -/
theorem factory_text_sudoku (lib : FactoryLib K) (o : FactoryOptions) (file : InstanceFile K) (h : o.function = 190)
    (h0 : 0 < o.bvSize) :
    (IsSudokuText (splitLines file.text) → o.categorical < 2 → ∃ s reps, sudokuLoad Sudoku.new file.text = ok s ∧
      makeFunction lib o file = ok (.sudoku s reps) ∧ SudokuPlayable K s reps) ∧
    (¬ IsSudokuText (splitLines file.text) ∨ 2 ≤ o.categorical → makeFunction lib o file = .throw .runtimeError) := by
  rw [make_eq h0]
  have hc : makeCase lib o o.bvSize.toNat file = makeSudoku o.categorical file.text := by
    simp only [makeCase, makeCase2, makeCase3, h]
  rw [hc]
  rcases sudokuLoad_spec Sudoku.new sudokuNew_boards.1 sudokuNew_boards.2 file.text with
    ⟨h1, s, h2, h3, -⟩ | ⟨h1, h2⟩
  · refine ⟨fun _ hcat => ?_, fun hor => ?_⟩
    · obtain hcat | hcat : o.categorical = 0 ∨ o.categorical = 1 := by omega
      · obtain ⟨r, hr⟩ : ∃ r, integerCategoricalNew 9 = ok r := ⟨_, integerCategoricalNew_spec (by omega) (by omega)⟩
        refine ⟨s, List.replicate (emptyCells s.problem).length r.rep, h2, ?_, sudoku_playable s h3 r.rep
          (integerCategorical_decodes (by omega) (by omega) hr) ?_ ?_⟩
        · unfold makeSudoku
          simp only [h2, ok_bind, h3.2.2.1, hcat, hr]
        · intro bv d hbv hu
          obtain ⟨c, e1, e2, -⟩ := integerCategoricalUnpack_spec (by omega) (by omega) hr (bv := bv) (start := 0)
            (by rw [hbv]; exact (Nat.zero_add _).le)
          change integerCategoricalUnpack r bv 0 = ok d at hu
          rw [hu] at e1
          cases e1
          exact e2
        · intro d hd
          exact integerCategoricalUnpack_onto (by omega) (by omega) hr hd
      · obtain ⟨r, hr, -, hrange⟩ := linearCategoricalUnpack_range (n := 9) (by omega) (by omega)
        refine ⟨s, List.replicate (emptyCells s.problem).length r.rep, h2, ?_, sudoku_playable s h3 r.rep
          (linearCategorical_decodes (by omega) (by omega) hr) ?_ ?_⟩
        · unfold makeSudoku
          simp only [h2, ok_bind, h3.2.2.1, hcat, hr]
        · intro bv d hbv hu
          obtain ⟨c, e1, e2⟩ := hrange bv 0 (by rw [hbv]; exact (Nat.zero_add _).le)
          change linearCategoricalUnpack r bv 0 = ok d at hu
          rw [hu] at e1
          cases e1
          exact e2
        · intro d hd
          obtain ⟨g1, g2⟩ := linearCategoricalUnpack_onto (n := 9) (by omega) (by omega) hr
          cases d with
          | zero => exact ⟨_, by simp [LinearCategorical.rep], g1⟩
          | succ d => exact ⟨_, by simp [LinearCategorical.rep], g2 d hd⟩
    · rcases hor with hn | hcat
      · exact absurd h1 hn
      · unfold makeSudoku
        simp only [h2, ok_bind, h3.2.2.1]
        split <;> first | omega | rfl
  · refine ⟨fun hn => absurd hn h1, fun _ => ?_⟩
    unfold makeSudoku
    rw [h2]
    rfl

/-! ## From `ffgen` to `hnco` -/

/-- C82: linear functions with random weights, or with weights in progression: whatever the draws, the file written by `ffgen`
is read by `hnco` as a linear function of the requested size with the requested weights. -/
theorem ffgen_hnco_linear {num : Numerics K} {N : K → Prop} (hN : Sim.Exactly num.normal N) (o : FfgenOptions K)
    (h : o.function = 1) (hg : o.linGenerator < 3) (hn : 0 < o.bvSize) :
    Sim.Post (ffgen num o) fun written => ∃ w : List K, w.length = o.bvSize ∧
      (o.linGenerator = 0 → ∀ v ∈ w, ScaledBy N o.stddev v) ∧
      (o.linGenerator = 1 → ∀ i < o.bvSize, entry w i = o.linInitialWeight + i * o.linDistance) ∧
      (o.linGenerator = 2 → ∀ i < o.bvSize, entry w i = o.linInitialWeight * o.linRatio ^ i) ∧
      ∀ (lib : FactoryLib K) (fo : FactoryOptions) (file : InstanceFile K), fo.function = 1 → file.Holds written →
        LoadsWith lib fo file o.bvSize fun x => ∑ i ∈ Finset.range o.bvSize, if x[i]? = some true then entry w i else 0 := by
  have load : ∀ w : List K, w.length = o.bvSize →
      ∀ (lib : FactoryLib K) (fo : FactoryOptions) (file : InstanceFile K), fo.function = 1 →
        file.Holds (.archive (saveReals w)) →
        LoadsWith lib fo file o.bvSize fun x => ∑ i ∈ Finset.range o.bvSize, if x[i]? = some true then entry w i else 0 :=
    fun w hw lib fo file hfo hfile => by
      rw [← hw]
      exact (factory_saved_vectors lib fo file w hfile).1 hfo
  obtain h0 | h1 | h2 : o.linGenerator = 0 ∨ o.linGenerator = 1 ∨ o.linGenerator = 2 := by omega
  · refine (ffgen_linear_normal hN o h h0 hn).1.mono ?_
    rintro written ⟨w, rfl, hw, hv⟩
    exact ⟨w, hw, fun _ => hv, fun h => by omega, fun h => by omega, load w hw⟩
  · rw [(ffgen_linear_progression num o h hn).1 h1]
    refine Sim.Post.pure ⟨_, by simp, fun h => by omega, fun _ i hi => ?_, fun h => by omega, load _ (by simp)⟩
    simp [entry, hi]
  · rw [(ffgen_linear_progression num o h hn).2 h2]
    refine Sim.Post.pure ⟨_, by simp, fun h => by omega, fun h => by omega, fun _ i hi => ?_, load _ (by simp)⟩
    simp [entry, hi]

/-- C82: equal products, partitions and Walsh expansions of degree 1. -/
theorem ffgen_hnco_vectors {num : Numerics K} {N U : K → Prop} (hN : Sim.Exactly num.normal N)
    (hU : Sim.Exactly num.uniform U) (o : FfgenOptions K) (hn : 0 < o.bvSize) :
    (o.function = 90 → Sim.Post (ffgen num o) fun written => ∃ w : List K, w.length = o.bvSize ∧
      (∀ v ∈ w, ScaledBy U o.epUpperBound v) ∧ ∀ (lib : FactoryLib K) (fo : FactoryOptions) (file : InstanceFile K),
        fo.function = 90 → file.Holds written →
        LoadsWith lib fo file o.bvSize fun x => -|(side w x true).prod - (side w x false).prod|) ∧
    (o.function = 161 → Sim.Post (ffgen num o) fun written => ∃ w : List K, w.length = o.bvSize ∧
      (∀ v ∈ w, ScaledBy N o.stddev v) ∧ ∀ (lib : FactoryLib K) (fo : FactoryOptions) (file : InstanceFile K),
        fo.function = 161 → file.Holds written →
        LoadsWith lib fo file o.bvSize fun x => ∑ i ∈ Finset.range o.bvSize, entry w i * spin K x i) ∧
    (o.function = 91 → 0 < o.partUpperBound → Sim.Post (ffgen num o) fun written => ∃ w : List Int, w.length = o.bvSize ∧
      (∀ v ∈ w, 1 ≤ v ∧ v ≤ o.partUpperBound) ∧ ∀ (lib : FactoryLib K) (fo : FactoryOptions) (file : InstanceFile K),
        fo.function = 91 → file.Holds written →
        LoadsWith lib fo file o.bvSize fun x => -|((side w x true).sum : K) - (side w x false).sum|) := by
  obtain ⟨g1, g2, g3⟩ := ffgen_vectors hN hU o hn
  refine ⟨fun h => (g1 h).1.mono ?_, fun h => (g2 h).1.mono ?_, fun h hu => (g3 h hu).1.mono ?_⟩
  · rintro written ⟨w, rfl, hw, hv⟩
    exact ⟨w, hw, hv, fun lib fo file hfo hfile => hw ▸ (factory_saved_vectors lib fo file w hfile).2.1 hfo⟩
  · rintro written ⟨w, rfl, hw, hv⟩
    exact ⟨w, hw, hv, fun lib fo file hfo hfile => hw ▸ (factory_saved_vectors lib fo file w hfile).2.2 hfo⟩
  · rintro written ⟨w, rfl, hw, hv⟩
    exact ⟨w, hw, hv, fun lib fo file hfo hfile => hw ▸ factory_saved_partition lib fo file w hfile hfo⟩

/-- C82: NK landscapes. -/
theorem ffgen_hnco_nk {num : Numerics K} {N : K → Prop} (hN : Sim.Exactly num.normal N) (o : FfgenOptions K)
    (h : o.function = 60) (hk : 0 < o.nkK) (hkn : o.nkK < o.bvSize) (hk29 : o.nkK ≤ 29) :
    Sim.Post (ffgen num o) fun written => ∃ nk : Nk K, NkValid o.bvSize o.nkK nk ∧
      (∀ p ∈ nk.partials, ∀ v ∈ p, ScaledBy N o.stddev v) ∧
      ∀ (lib : FactoryLib K) (fo : FactoryOptions) (file : InstanceFile K), fo.function = 60 → file.Holds written →
        ∃ value : BV → K, LoadsWith lib fo file o.bvSize value ∧
          ∀ x : BV, x.length = o.bvSize → ∃ terms : List K, value x = terms.sum / o.bvSize ∧
            terms.length = o.bvSize ∧ ∀ i, i < o.bvSize → ∃ row table v, nk.neighbors[i]? = some row ∧
              nk.partials[i]? = some table ∧ terms[i]? = some v ∧ NkTerm x row table v := by
  refine (ffgen_nk hN o h hk hkn hk29).1.mono ?_
  rintro written ⟨nk, rfl, hv, hp⟩
  exact ⟨nk, hv, hp, fun lib fo file hfo hfile => factory_saved_nk lib fo file nk _ _ (by omega) hv hfile hfo⟩

/-- C82: Walsh expansions. -/
theorem ffgen_hnco_walsh {num : Numerics K} {N : K → Prop} (hN : Sim.Exactly num.normal N) (o : FfgenOptions K)
    (h : o.function = 160) (hn : 0 < o.bvSize) (hk : 0 < o.walshNumFeatures) :
    Sim.Post (ffgen num o) fun written => ∃ terms : List (WalshTerm K), terms.length = o.walshNumFeatures ∧
      (∀ t ∈ terms, t.feature.length = o.bvSize ∧ ScaledBy N o.stddev t.coefficient) ∧
      ∀ (lib : FactoryLib K) (fo : FactoryOptions) (file : InstanceFile K), fo.function = 160 → file.Holds written →
        LoadsWith lib fo file o.bvSize fun x => (terms.map fun t => walshSign K x t.feature * t.coefficient).sum := by
  refine (ffgen_walsh hN o h hn hk).1.mono ?_
  rintro written ⟨terms, rfl, hl, ht⟩
  refine ⟨terms, hl, ht, fun lib fo file hfo hfile => factory_saved_walsh lib fo file terms _ ?_ (fun t h => (ht t h).1) hfile hfo⟩
  rintro rfl
  simp at hl
  omega

/-- C82: Walsh expansions of degree 2, with random or with long range terms. -/
theorem ffgen_hnco_walsh2 {num : Numerics K} {N : K → Prop} (hN : Sim.Exactly num.normal N) (o : FfgenOptions K)
    (h : o.function = 162) (hg : o.walsh2Generator < 2) (hn : 0 < o.bvSize) :
    Sim.Post (ffgen num o) fun written => ∃ (linear : List K) (quadratic : List (List K)), linear.length = o.bvSize ∧
      quadratic.map List.length = List.range o.bvSize ∧
      (o.walsh2Generator = 0 → (∀ v ∈ linear, ScaledBy N o.stddev v) ∧ ∀ row ∈ quadratic, ∀ v ∈ row, ScaledBy N o.stddev v) ∧
      (o.walsh2Generator = 1 → (∀ v ∈ linear, v = 0) ∧ ∀ i < o.bvSize, ∀ j < i,
        gridEntry quadratic i j = num.power ((i - j : Nat) : K) (-o.walsh2Alpha)) ∧
      ∀ (lib : FactoryLib K) (fo : FactoryOptions) (file : InstanceFile K), fo.function = 162 → file.Holds written →
        LoadsWith lib fo file o.bvSize fun x => ∑ i ∈ Finset.range o.bvSize, entry linear i * spin K x i +
          ∑ i ∈ Finset.range o.bvSize, ∑ j ∈ Finset.range i, gridEntry quadratic i j * spin K x i * spin K x j := by
  obtain h0 | h1 : o.walsh2Generator = 0 ∨ o.walsh2Generator = 1 := by omega
  · refine (ffgen_walsh2 hN o h h0 hn).1.mono ?_
    rintro written ⟨⟨linear, quadratic⟩, rfl, ⟨hl, hlv⟩, hq, hqv⟩
    exact ⟨linear, quadratic, hl, hq, fun _ => ⟨hlv, hqv⟩, fun h => by omega,
      fun lib fo file hfo hfile => factory_saved_walsh2 lib fo file linear quadratic _ hl hq hfile hfo⟩
  · rw [ffgen_walsh2_long_range num o h h1 hn]
    refine Sim.Post.pure ⟨_, _, by simp, ?_, fun h => by omega, fun _ => ⟨fun v hv => List.eq_of_mem_replicate hv, fun i hi j hj => ?_⟩,
      fun lib fo file hfo hfile => factory_saved_walsh2 lib fo file _ _ _ (by simp) ?_ hfile hfo⟩
    · simp [Function.comp_def]
    · simp [gridEntry, entry, hi, hj]
    · simp [Function.comp_def]

/-- C82: Ising models in one dimension. -/
theorem ffgen_hnco_ising1 {num : Numerics K} {N : K → Prop} (hN : Sim.Exactly num.normal N) (o : FfgenOptions K)
    (h : o.function = 171) (hg : o.nn1Generator < 4) (hn : 0 < o.bvSize) :
    Sim.Post (ffgen num o) fun written => ∃ m : Ising1 K,
      IsIsing1 o.bvSize (CouplingLaw N o o.nn1Generator) (FieldLaw N o o.nn1Generator) o.periodic m ∧
      ∀ (lib : FactoryLib K) (fo : FactoryOptions) (file : InstanceFile K), fo.function = 171 → file.Holds written →
        LoadsWith lib fo file o.bvSize fun x =>
          ∑ i ∈ Finset.range (o.bvSize - 1), entry m.coupling i * spin K x i * spin K x (i + 1) +
          (if o.periodic then entry m.coupling (o.bvSize - 1) * spin K x (o.bvSize - 1) * spin K x 0 else 0) +
          ∑ i ∈ Finset.range o.bvSize, entry m.field i * spin K x i := by
  refine (ffgen_ising1 hN o h hg hn).1.mono ?_
  rintro written ⟨m, rfl, hm⟩
  refine ⟨m, hm, fun lib fo file hfo hfile => ?_⟩
  rw [← hm.boundary]
  exact factory_saved_ising1 lib fo file m _ hn hm.couplings hm.fields hfile hfo

/-- C82: Ising models in two dimensions. -/
theorem ffgen_hnco_ising2 {num : Numerics K} {N : K → Prop} (hN : Sim.Exactly num.normal N) (o : FfgenOptions K)
    (h : o.function = 172) (hg : o.nn2Generator < 4) (hr : 0 < o.nn2Rows) (hc : 0 < o.nn2Columns) :
    Sim.Post (ffgen num o) fun written => ∃ m : Ising2 K,
      IsIsing2 o.nn2Rows o.nn2Columns (CouplingLaw N o o.nn2Generator) (FieldLaw N o o.nn2Generator) o.periodic m ∧
      ∀ (lib : FactoryLib K) (fo : FactoryOptions) (file : InstanceFile K), fo.function = 172 → file.Holds written →
        LoadsWith lib fo file (o.nn2Rows * o.nn2Columns) fun x =>
          ∑ i ∈ Finset.range o.nn2Rows, ∑ j ∈ Finset.range (o.nn2Columns - 1),
            gridEntry m.right i j * spin K x (i * o.nn2Columns + j) * spin K x (i * o.nn2Columns + (j + 1)) +
          ∑ i ∈ Finset.range (o.nn2Rows - 1), ∑ j ∈ Finset.range o.nn2Columns,
            gridEntry m.below i j * spin K x (i * o.nn2Columns + j) * spin K x ((i + 1) * o.nn2Columns + j) +
          (if o.periodic then
            ∑ i ∈ Finset.range o.nn2Rows, gridEntry m.right i (o.nn2Columns - 1) *
              spin K x (i * o.nn2Columns + (o.nn2Columns - 1)) * spin K x (i * o.nn2Columns) +
            ∑ j ∈ Finset.range o.nn2Columns, gridEntry m.below (o.nn2Rows - 1) j *
              spin K x ((o.nn2Rows - 1) * o.nn2Columns + j) * spin K x j else 0) +
          ∑ i ∈ Finset.range o.nn2Rows, ∑ j ∈ Finset.range o.nn2Columns,
            gridEntry m.field i j * spin K x (i * o.nn2Columns + j) := by
  refine (ffgen_ising2 hN o h hg hr hc).1.mono ?_
  rintro written ⟨m, rfl, hm⟩
  refine ⟨m, hm, fun lib fo file hfo hfile => ?_⟩
  rw [← hm.boundary]
  exact factory_saved_ising2 lib fo file m _ _ hr hc hm.rights hm.belows hm.fields hfile hfo

/-- C82: MaxSat: the function counts the satisfied clauses, and a planted instance has a vector which satisfies all clauses. -/
theorem ffgen_hnco_maxSat {num : Numerics K} (hu : ∀ d n j, 0 < n → num.deviate d j < num.ratio n n) (o : FfgenOptions K)
    (h : o.function = 70) (hk : 0 < o.msNumLiterals) (hc : 0 < o.msNumClauses) (hkn : o.msNumLiterals ≤ o.bvSize)
    (hn : o.bvSize ≤ 2147483647) (hcn : o.msNumClauses ≤ 2147483647) :
    Sim.Post (ffgen num o) fun written => ∃ e, IsInstance o.bvSize o.msNumLiterals o.msNumClauses e ∧
      ∀ (lib : FactoryLib K) (fo : FactoryOptions) (file : InstanceFile K), fo.function = 70 → file.Holds written →
        (LoadsWith lib fo file o.bvSize fun x => ((e.countP fun clause => ∃ lit ∈ clause, LitTrue x lit : Nat) : K)) ∧
        (o.msPlanted = true → ∃ x : BV, x.length = o.bvSize ∧ ∀ clause ∈ e, ∃ lit ∈ clause, LitTrue x lit) := by
  refine (ffgen_maxSat hu o h hk hc hkn hn hcn).mono ?_
  rintro written ⟨text, e, rfl, hload, hi, hp⟩
  refine ⟨e, hi, fun lib fo file hfo hfile => ⟨?_, fun hpl => ?_⟩⟩
  · change file.text = text at hfile
    exact (factory_text_sat lib fo file o.bvSize e (by rw [hfile]; exact hload)).1 hfo
  · obtain ⟨x, hx, hv⟩ := hp hpl
    refine ⟨x, hx, ?_⟩
    have hr := (cnfLoad_range text o.bvSize e hload).2
    rw [Int.toNat_natCast] at hr
    rw [maxSat_value e x (by rw [hx]; exact hr)] at hv
    have := ok.inj hv
    rw [← hi.1, List.countP_eq_length] at this
    intro clause hcl
    simpa using this clause hcl

/-- C82: Sudoku: with both categorical representations, the adapter has a bit vector of value zero, which is the largest
value. -/
theorem ffgen_hnco_sudoku {num : Numerics K} (hu : ∀ d n j, 0 < n → num.deviate d j < num.ratio n n) (o : FfgenOptions K)
    (h : o.function = 190) (hc : 0 < o.sudokuEmptyCells) (hc81 : o.sudokuEmptyCells ≤ 81) :
    Sim.Post (ffgen num o) fun written => ∀ (lib : FactoryLib K) (fo : FactoryOptions) (file : InstanceFile K),
      fo.function = 190 → 0 < fo.bvSize → fo.categorical < 2 → file.Holds written →
      ∃ s reps, makeFunction lib fo file = ok (.sudoku s reps) ∧ SudokuPlayable K s reps ∧
        reps.length = o.sudokuEmptyCells ∧
        ∃ bv : BV, bv.length = (reps.map Rep.size).sum ∧ ∀ vars : List Nat, vars.length = reps.length →
          ∃ s', sudokuFnEval s reps vars bv = ok ((0 : K), s') := by
  refine (ffgen_sudoku hu o h hc hc81).mono ?_
  rintro written ⟨text, t, rfl, h1, h2, x, t', h3, h4, h5⟩ lib fo file hfo h0 hcat hfile
  change file.text = text at hfile
  have htext : IsSudokuText (splitLines file.text) := by
    rcases sudokuLoad_spec Sudoku.new sudokuNew_boards.1 sudokuNew_boards.2 file.text with ⟨g, -⟩ | ⟨-, g⟩
    · exact g
    · rw [hfile, h1] at g
      cases g
  obtain ⟨s, reps, g1, g2, g3⟩ := (factory_text_sudoku lib fo file hfo h0).1 htext hcat
  rw [hfile, h1] at g1
  cases g1
  have hcells : (emptyCells t.problem).length = o.sudokuEmptyCells := Option.some.inj (g3.ready.2.2.1.symm.trans h2)
  have hlen : reps.length = o.sudokuEmptyCells := by rw [g3.cells, hcells]
  refine ⟨t, reps, g2, g3, hlen, ?_⟩
  obtain ⟨bv, k1, k2⟩ := g3.onto x (by rw [h3, hlen]) h4
  refine ⟨bv, k1, fun vars hvars => ?_⟩
  obtain ⟨v, s', e1, e2⟩ := k2 vars hvars
  rw [h5] at e1
  cases e1
  exact ⟨t', by simpa using e2⟩

end

/-! ## Examples -/

example : Sim.Exactly exampleNumerics.normal (fun x => ∃ d : Nat, x = d) ∧ (exampleFfgen 1 2).function = 1 ∧
    (exampleFfgen 1 2).linGenerator < 3 ∧ 0 < (exampleFfgen 1 2).bvSize :=
  ⟨⟨Sim.Post.draw.bind fun d _ => Sim.Post.pure ⟨d, rfl⟩, fun x ⟨d, hd⟩ => hd ▸ (Sim.Reaches.draw d).bind (Sim.Reaches.pure _)⟩,
    rfl, by decide, by decide⟩

example : ffgen exampleNumerics (exampleFfgen 1 2) [] = .ok (.archive (saveReals [1, 2, 4])) [] ∧
    LoadsWith exampleLib (exampleFactory 1 7) ⟨[], some (saveReals [1, 2, 4])⟩ 3
      (fun x => ∑ i ∈ Finset.range 3, if x[i]? = some true then entry [1, 2, 4] i else 0) :=
  ⟨by decide +kernel, (factory_saved_vectors exampleLib (exampleFactory 1 7) _ [1, 2, 4] rfl).1 rfl⟩

example : (exampleFfgen 60 0).function = 60 ∧ 0 < (exampleFfgen 60 0).nkK ∧ (exampleFfgen 60 0).nkK < (exampleFfgen 60 0).bvSize ∧
    (exampleFfgen 60 0).nkK ≤ 29 := by decide

example : (exampleFfgen 70 0).function = 70 ∧ 0 < (exampleFfgen 70 0).msNumLiterals ∧
    (exampleFfgen 70 0).msNumLiterals ≤ (exampleFfgen 70 0).bvSize ∧ (exampleFfgen 70 0).msPlanted = true := by decide

example : (exampleFfgen 190 0).function = 190 ∧ 0 < (exampleFfgen 190 0).sudokuEmptyCells ∧
    (exampleFfgen 190 0).sudokuEmptyCells ≤ 81 := by decide

/-- A file with an empty grid. -/
def emptyGrid : List Char := (List.replicate 9 ".........\n".toList).flatten

example : ∃ s reps, makeFunction exampleLib (exampleFactory 190 1) ⟨emptyGrid, none⟩ = ok (.sudoku s reps) ∧
    SudokuPlayable Rat s reps := by
  obtain ⟨s, reps, -, h1, h2⟩ := (factory_text_sudoku exampleLib (exampleFactory 190 1) ⟨emptyGrid, none⟩ rfl (by decide)).1 (by
    have : ∀ i < 9, ∀ j < 9, cellAt (splitLines emptyGrid) i j = some '.' := by decide +kernel
    exact fun i hi j hj => ⟨'.', this i hi j hj, Or.inl rfl⟩) (by decide)
  exact ⟨s, reps, h1, h2⟩

end Hnco
