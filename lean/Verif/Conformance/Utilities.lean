import Verif.Conformance.Grid
import Verif.Model.Functions
import Verif.Model.ParametricFunctions
import Verif.Model.SafeSample
import Verif.Props.Lqr
import Verif.Props.ValueProgram
import Mathlib.Data.List.OfFn
import Mathlib.Tactic.FinCases
import Mathlib.Tactic.Linarith
set_option autoImplicit false

/-!
# The tests of the project, run on the model: functions, utilities, safe sets and policy iteration
(safe_learning/tests/test_functions.py:24-122, 264-282, 370-405; safe_learning/tests/test_utilities.py;
safe_learning/tests/test_lyapunov.py:24-74; safe_learning/tests/test_rl.py:83-173)

Each theorem states the assertions of one test, with the numbers of the test. These are checks of the
model, not properties of the code.
-/

namespace SafeLearning.Conformance

/-! ## Functions -/

/-- `A(value)` with the variable `v`: the variable times the input
(safe_learning/tests/test_functions.py:29-38). -/
def testFn (v : ℕ) : Fn ℚ := .leaf
  { vars := [v]
    eval := fun vals pts => .ok (pts.map fun r => r.map fun x => ((vals.head?.bind fun t => t.data.head?).getD 0) * x)
    hasDims := false }

/-- The session of the tests: variable 0 has the value 3 and variable 1 the value 2
(safe_learning/tests/test_functions.py:61-62, 78-79). -/
def testVars : VarStore ℚ := fun v => ⟨[], [if v = 0 then 3 else 2]⟩

/-- `test_class` (safe_learning/tests/test_functions.py:43-55). -/
theorem test_class : returns ((testFn 1).evaluate testVars [[1]]) (.rows [[2]]) = true := by decide +kernel

/-- `test_add` (safe_learning/tests/test_functions.py:57-72). -/
theorem test_add : ∃ f, (PyObj.fn (testFn 0)).add (.fn (testFn 1)) = .ok (.fn f) ∧
    returns (f.evaluate testVars [[1]]) (.rows [[5]]) = true ∧ 0 ∈ f.parameters ∧ 1 ∈ f.parameters :=
  ⟨_, rfl, by decide +kernel, by decide, by decide⟩

/-- `test_mult` (safe_learning/tests/test_functions.py:74-94). -/
theorem test_mult : (∃ f, (PyObj.fn (testFn 0)).mul (.fn (testFn 1)) = .ok (.fn f) ∧
    returns (f.evaluate testVars [[1]]) (.rows [[6]]) = true ∧ 0 ∈ f.parameters ∧ 1 ∈ f.parameters) ∧
    ∃ f, (PyObj.fn (testFn 0)).mul (.num 2) = .ok (.fn f) ∧
      returns (f.evaluate testVars [[1]]) (.rows [[6]]) = true :=
  ⟨⟨_, rfl, by decide +kernel, by decide, by decide⟩, _, rfl, by decide +kernel⟩

/-- `test_neg` (safe_learning/tests/test_functions.py:96-108). -/
theorem test_neg : ∃ f, (PyObj.fn (testFn 0)).neg = .fn f ∧
    returns (f.evaluate testVars [[2]]) (.rows [[-6]]) = true ∧ f.parameters[0]? = (testFn 0).parameters[0]? :=
  ⟨_, rfl, by decide +kernel, by decide⟩

/-- `test_copy` (safe_learning/tests/test_functions.py:110-122): variable 1 belongs to `a`, variable 0 to `b`. -/
theorem test_copy : ((testFn 0).copyParameters (testFn 1) testVars).1 0 = testVars 1 ∧
    ((testFn 0).copyParameters (testFn 1) testVars).1 1 = testVars 1 ∧
    (testFn 0).parameters ≠ (testFn 1).parameters := by
  refine ⟨?_, ?_, by decide⟩ <;> rfl

/-- `test_evaluate` of the quadratic function (safe_learning/tests/test_functions.py:267-282). -/
theorem test_quadratic_evaluate :
    [![0, 0], ![0, 1], ![1, 0], ![1, 1]].map (quadraticEvaluate !![(1 : ℚ), 1 / 10; 2 / 10, 2]) =
      [0, 2, 1, 33 / 10] := by decide +kernel

/-- `test_concatenate_numpy` (safe_learning/tests/test_functions.py:378-385). -/
theorem test_concatenate_numpy :
    (concatenated (fun (_ : Unit) (x : Arr ℚ) => .ok x) false () [.matrix [[0, 1], [2, 3]], .matrix [[4, 5], [6, 7]]] =
      .ok (.matrix [[0, 1, 4, 5], [2, 3, 6, 7]])) ∧
    concatenated (fun (_ : Unit) (x : Arr ℚ) => .ok x) false () [.matrix [[0, 1], [2, 3]]] =
      .ok (.matrix [[0, 1], [2, 3]]) := ⟨rfl, rfl⟩

/-- `test_concatenate_tensorflow` (safe_learning/tests/test_functions.py:387-405). -/
theorem test_concatenate_tensorflow :
    (concatenated (fun (_ : Unit) (x : Arr ℚ) => .ok x) true () [.matrix [[0, 1], [2, 3]], .matrix [[4, 5], [6, 7]]] =
      .ok (.matrix [[0, 1, 4, 5], [2, 3, 6, 7]])) ∧
    concatenated (fun (_ : Unit) (x : Arr ℚ) => .ok x) true () [.matrix [[0, 1], [2, 3]]] =
      .ok (.matrix [[0, 1], [2, 3]]) := ⟨rfl, rfl⟩

/-! ## Utilities -/

/-- `method(value, index)` of the test class: what it returns and the storage afterwards
(safe_learning/tests/test_utilities.py:45-48). -/
def storeMethod (s : Store String (Option ℕ)) (value : Option ℕ) (index : Option String) :
    Option (Stored String (Option ℕ)) × Store String (Option ℕ) :=
  (getStorage s "method" index, setStorage s "method" value index)

/-- `storage['value']` (safe_learning/tests/test_utilities.py:57, 59, 65, 69). -/
def storedValue : Option (Stored String (Option ℕ)) → Option (Option ℕ)
  | none => none
  | some (.whole e) => e.base
  | some (.item v) => some v

/-- `test_storage` (safe_learning/tests/test_utilities.py:52-69). -/
theorem test_storage :
    let s0 : Store String (Option ℕ) := fun _ => none
    let (r1, s1) := storeMethod s0 (some 5) none
    let (r2, s2) := storeMethod s1 (some 4) none
    let (r3, s3) := storeMethod s2 none none
    let (r4, s4) := storeMethod s3 (some 3) (some "test")
    let (r5, s5) := storeMethod s4 (some 4) (some "test")
    let (r6, s6) := storeMethod s5 (some 3) (some "test2")
    let (r7, _) := storeMethod s6 (some 3) (some "test")
    r1.isNone ∧ storedValue r2 = some (some 5) ∧ storedValue r3 = some (some 4) ∧ r4.isNone ∧
      storedValue r5 = some (some 3) ∧ r6.isNone ∧ storedValue r7 = some (some 4) := by decide +kernel

/-- `test_get_feed_dict` (safe_learning/tests/test_utilities.py:72-83). -/
theorem test_get_feed_dict :
    let h0 : FeedHeap Unit String ℕ := ⟨fun _ => none, 0, fun _ _ => none⟩
    let (r, h1) := getFeedDict h0 ()
    (∀ p, h1.content r p = none) ∧
    let h2 := writeFeed h1 r "test" 5
    (getFeedDict h2 ()).1 = r ∧ (getFeedDict h2 ()).2.content r "test" = some 5 := by
  refine ⟨fun p => rfl, rfl, ?_⟩
  decide +kernel

/-- `test_unique_rows` (safe_learning/tests/test_utilities.py:86-91). The key is the row itself, in lexicographic
order (for these small integers the order of the bytes of the rows on a big-endian machine; on a little-endian
machine as well, since each entry is below 256). -/
theorem test_unique_rows :
    uniqueRows (fun r : ℕ × ℕ => toLex r) [(1, 1), (1, 2), (1, 3), (1, 2), (1, 3), (1, 4), (2, 3)] =
      [(1, 1), (1, 2), (1, 3), (1, 4), (2, 3)] := by decide +kernel

open Matrix in
/-- `test_dlqr` (safe_learning/tests/test_utilities.py:17-28): the positive solution of the Riccati equation, which
SciPy returns, is the golden ratio, and the gain is its inverse. The test compares with 0.61803399 and
1.61803399, within a relative tolerance of `1e-7`. -/
theorem test_dlqr (p : ℝ) (hp : 0 < p)
    (hare : !![p] = !![(1 : ℝ)]ᵀ * !![p] * !![1] -
      !![1]ᵀ * !![p] * !![1] * (!![1] + !![1]ᵀ * !![p] * !![1])⁻¹ * (!![1]ᵀ * !![p] * !![1]) + !![1]) :
    ∃ k : ℝ, dlqr !![p] !![1] !![1] !![1] = .ok (!![k], !![p]) ∧
      |k - 61803399 / 10 ^ 8| ≤ 1 / 10 ^ 7 * (61803399 / 10 ^ 8) ∧
      |p - 161803399 / 10 ^ 8| ≤ 1 / 10 ^ 7 * (161803399 / 10 ^ 8) := by
  have hone : ∀ a b : ℝ, !![a] * !![b] = !![a * b] := fun a b => by
    ext i j; fin_cases i; fin_cases j; simp [Matrix.mul_apply]
  have htr : ∀ a : ℝ, !![a]ᵀ = !![a] := fun a => by ext i j; fin_cases i; fin_cases j; rfl
  have hadd : ∀ a b : ℝ, !![a] + !![b] = !![a + b] := fun a b => by
    ext i j; fin_cases i; fin_cases j; rfl
  have hsub : ∀ a b : ℝ, !![a] - !![b] = !![a - b] := fun a b => by
    ext i j; fin_cases i; fin_cases j; rfl
  have hinv : ∀ a : ℝ, a ≠ 0 → (!![a])⁻¹ = !![a⁻¹] := fun a ha => by
    refine Matrix.inv_eq_right_inv ?_
    rw [hone, mul_inv_cancel₀ ha]
    ext i j; fin_cases i; fin_cases j; simp
  have hq : (1 + p) ≠ 0 := by positivity
  simp only [htr, hone, hadd, one_mul, mul_one] at hare
  rw [hinv _ hq] at hare
  simp only [hone, hadd, hsub] at hare
  have heq : p = p - p * (1 + p)⁻¹ * p + 1 := by
    have := congrFun (congrFun hare 0) 0
    simpa using this
  have hp2 : p * p = p + 1 := by
    field_simp at heq
    nlinarith
  have hk : p / (1 + p) = p - 1 := by
    rw [div_eq_iff hq]; nlinarith
  refine ⟨p - 1, ?_, ?_, ?_⟩
  · unfold dlqr linSolve
    simp only [htr, hone, hadd, one_mul, mul_one, bind, Except.bind, pure, Except.pure]
    rw [if_neg (by simp; linarith), hinv _ (by linarith)]
    simp only [hone]
    rw [show (p + 1)⁻¹ * p = p - 1 by rw [← hk, add_comm]; ring]
  · rw [abs_le]; constructor <;> nlinarith
  · rw [abs_le]; constructor <;> nlinarith

/-! ## Safe sets -/

/-- `test_safe_set_init` (safe_learning/tests/test_lyapunov.py:24-46). -/
theorem test_safe_set_init (W : World ℚ Unit Unit 9) :
    (Lyap.new W () (1 / 2) (some fun j => decide (j = 1 ∨ j = 3)) false ()).safeSet =
      ![false, true, false, true, false, false, false, false, false] := by
  funext j
  fin_cases j <;> rfl

/-- The grid of `test_update` (safe_learning/tests/test_lyapunov.py:51). -/
def updateGrid : GridWorld ℚ 1 := ⟨![-1], ![1], ![3]⟩

/-- The system of `test_update`: the square, the policy `-0.1 x` and the dynamics `x + u`, with the Lipschitz constants
0.4 and 0.3 (safe_learning/tests/test_lyapunov.py:52-59). -/
def updateSystem : System ℚ Unit Unit 1 where
  V _ x := x 0 ^ 2
  lv _ := .const (3 / 10)
  lf _ := .const (4 / 10)
  closedLoop _ _ x := .exact fun _ => x 0 + -1 / 10 * x 0

/-- Indices sorted by value, ties in the order of the indices. -/
def stableSort {n : ℕ} (v : Fin n → ℚ) : List (Fin n) := (List.finRange n).insertionSort fun i j => v i ≤ v j

/-- `test_update` (safe_learning/tests/test_lyapunov.py:48-74), for every batch size up to ten. -/
theorem test_update : ∀ batch < 10, 0 < batch →
    let W := updateSystem.world updateGrid stableSort fun tau n => tau / n
    let start := fun tau => Lyap.new W () tau (some fun j => decide (j.1 = 1)) false ()
    List.ofFn ((start (1 / 2)).updateSafeSet W batch ⟨true, 1, 1⟩ ()).1.safeSet = [false, true, false] ∧
    List.ofFn ((start 0).updateSafeSet W batch ⟨true, 1, 1⟩ ()).1.safeSet = [true, true, true] := by
  decide +kernel

/-! ## Policy iteration -/

open PolicyIteration

/-- The linear program of `test_optimization`: rewards 0, 1, 2, 3, the default discount factor and the
transition probabilities (safe_learning/tests/test_rl.py:88-96). -/
def testProgram : Program ℚ where
  rewards := [0, 1, 2, 3]
  gamma := 98 / 100
  matrix := ⟨4, 4, [(1 / 2, 0, 1), (1 / 2, 0, 2), (1 / 5, 1, 0), (1 / 10, 1, 1), (3 / 10, 1, 2), (1 / 2, 1, 3),
    (3 / 10, 2, 0), (1 / 5, 2, 1), (2 / 5, 2, 2), (1 / 10, 2, 3), (1, 3, 3)]⟩

theorem testProgram_feasible (a b c e : ℚ) : Program.Feasible testProgram [a, b, c, e] ↔
    a ≤ 98 / 100 * (1 / 2 * b + 1 / 2 * c) ∧ b ≤ 1 + 98 / 100 * (1 / 5 * a + 1 / 10 * b + 3 / 10 * c + 1 / 2 * e) ∧
    c ≤ 2 + 98 / 100 * (3 / 10 * a + 1 / 5 * b + 2 / 5 * c + 1 / 10 * e) ∧ e ≤ 3 + 98 / 100 * e := by
  have hdot : testProgram.matrix.dot ([a, b, c, e].map fun v (_ : Fin 1) => v) =
      .ok [fun _ => 1 / 2 * b + 1 / 2 * c, fun _ => 1 / 5 * a + 1 / 10 * b + 3 / 10 * c + 1 / 2 * e,
        fun _ => 3 / 10 * a + 1 / 5 * b + 2 / 5 * c + 1 / 10 * e, fun _ => e] := by
    have hr : List.range 4 = [0, 1, 2, 3] := by decide
    simp only [Coo.dot, testProgram, List.map_cons, List.map_nil, List.length_cons, List.length_nil, hr]
    norm_num [List.filter]
    refine ⟨?_, ?_, ?_⟩ <;> (funext i; simp <;> ring)
  unfold Program.Feasible
  rw [hdot]
  constructor
  · rintro ⟨-, mv, h, hk⟩
    cases h
    have h0 := hk 0 a 0 _ rfl rfl rfl
    have h1 := hk 1 b 1 _ rfl rfl rfl
    have h2 := hk 2 c 2 _ rfl rfl rfl
    have h3 := hk 3 e 3 _ rfl rfl rfl
    simp only [testProgram] at h0 h1 h2 h3
    exact ⟨by linarith, h1, h2, h3⟩
  · rintro ⟨h0, h1, h2, h3⟩
    refine ⟨rfl, _, rfl, ?_⟩
    intro k v r w hv hr hw
    match k with
    | 0 => cases hv; cases hr; cases hw; simp only [testProgram]; linarith
    | 1 => cases hv; cases hr; cases hw; exact h1
    | 2 => cases hv; cases hr; cases hw; exact h2
    | 3 => cases hv; cases hr; cases hw; exact h3
    | k + 4 => simp at hv

/-- `test_optimization` (safe_learning/tests/test_rl.py:83-125): the only optimal solution of the linear
program is the solution of `(I - gamma * trans_probs) values = rewards`. (The second row of the matrix sums to 1.1.) -/
theorem test_optimization (values : List ℚ) (hopt : Program.Optimal testProgram values) :
    ∃ a b c e, values = [a, b, c, e] ∧
      a - 98 / 100 * (1 / 2 * b + 1 / 2 * c) = 0 ∧
      b - 98 / 100 * (1 / 5 * a + 1 / 10 * b + 3 / 10 * c + 1 / 2 * e) = 1 ∧
      c - 98 / 100 * (3 / 10 * a + 1 / 5 * b + 2 / 5 * c + 1 / 10 * e) = 2 ∧
      e - 98 / 100 * e = 3 := by
  obtain ⟨hf, ho⟩ := hopt
  have hl := hf.1
  match values, hl with
  | [a, b, c, e], _ =>
    refine ⟨a, b, c, e, rfl, ?_⟩
    obtain ⟨h0, h1, h2, h3⟩ := (testProgram_feasible a b c e).mp hf
    -- raising one value as far as its own constraint allows keeps the others feasible
    have key : ∀ a' b' c' e', a ≤ a' → b ≤ b' → c ≤ c' → e ≤ e' →
        Program.Feasible testProgram [a', b', c', e'] → a' = a ∧ b' = b ∧ c' = c ∧ e' = e := by
      intro a' b' c' e' ha hb hc he h
      have := ho _ h
      simp only [List.sum_cons, List.sum_nil] at this
      refine ⟨?_, ?_, ?_, ?_⟩ <;> linarith
    have ka := key (98 / 100 * (1 / 2 * b + 1 / 2 * c)) b c e h0 le_rfl le_rfl le_rfl
      ((testProgram_feasible _ _ _ _).mpr ⟨le_rfl, by linarith, by linarith, h3⟩)
    have kb := key a ((1 + 98 / 100 * (1 / 5 * a + 3 / 10 * c + 1 / 2 * e)) / (1 - 98 / 1000)) c e le_rfl
      (by rw [le_div_iff₀ (by norm_num)]; linarith) le_rfl le_rfl
      ((testProgram_feasible _ _ _ _).mpr (by
        have hb : b ≤ (1 + 98 / 100 * (1 / 5 * a + 3 / 10 * c + 1 / 2 * e)) / (1 - 98 / 1000) := by
          rw [le_div_iff₀ (by norm_num)]; linarith
        refine ⟨by linarith, ?_, by linarith, h3⟩
        generalize hx : (1 + 98 / 100 * (1 / 5 * a + 3 / 10 * c + 1 / 2 * e)) / (1 - 98 / 1000 : ℚ) = x at *
        rw [div_eq_iff (by norm_num)] at hx
        linarith))
    have kc := key a b ((2 + 98 / 100 * (3 / 10 * a + 1 / 5 * b + 1 / 10 * e)) / (1 - 392 / 1000)) e le_rfl le_rfl
      (by rw [le_div_iff₀ (by norm_num)]; linarith) le_rfl
      ((testProgram_feasible _ _ _ _).mpr (by
        have hc : c ≤ (2 + 98 / 100 * (3 / 10 * a + 1 / 5 * b + 1 / 10 * e)) / (1 - 392 / 1000) := by
          rw [le_div_iff₀ (by norm_num)]; linarith
        generalize hx : (2 + 98 / 100 * (3 / 10 * a + 1 / 5 * b + 1 / 10 * e)) / (1 - 392 / 1000 : ℚ) = x at *
        rw [div_eq_iff (by norm_num)] at hx
        refine ⟨by linarith, by linarith, by linarith, h3⟩))
    have ke := key a b c 150 le_rfl le_rfl le_rfl (by linarith)
      ((testProgram_feasible _ _ _ _).mpr ⟨h0, by linarith, by linarith, by norm_num⟩)
    have kb' := kb.2.1
    have kc' := kc.2.2.1
    rw [div_eq_iff (by norm_num)] at kb' kc'
    refine ⟨by linarith [ka.1], by linarith, by linarith, by linarith [ke.2.2.2]⟩

end SafeLearning.Conformance
