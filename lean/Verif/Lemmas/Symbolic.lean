import Verif.Lemmas.Spheroid
/-!
# Symbolic derivatives of expressions in the coordinates of the Hertz solution

Expressions are polynomials in `x`, `y`, `z`, `M`, `N`, `1/S`, `1/r²`, `1/(1+M²)` and `φ = arctan2(1, M)`.  Their partial derivatives are such
expressions again.
-/
namespace CM.Ref.Hertz

open Real

/-- Variables. -/
inductive V where
  | x | y | z | M | N | iS | iR | W | phi

/-- Expressions. -/
inductive Ex where
  | v (a : V)
  | c (q : ℝ)
  | add (a b : Ex)
  | mul (a b : Ex)
  | sub (a b : Ex)
  | neg (a : Ex)
  | pow (a : Ex) (n : ℕ)

/-- Directions. -/
inductive Dir where
  | x | y | z

instance : Add Ex := ⟨Ex.add⟩
instance : Mul Ex := ⟨Ex.mul⟩
instance : Sub Ex := ⟨Ex.sub⟩
instance : Neg Ex := ⟨Ex.neg⟩
instance : Pow Ex ℕ := ⟨Ex.pow⟩
instance : Coe ℝ Ex := ⟨Ex.c⟩
instance : Coe V Ex := ⟨Ex.v⟩

/-- Value of a variable. -/
noncomputable def V.val (x y z : ℝ) : V → ℝ
  | .x => x
  | .y => y
  | .z => z
  | .M => hamM (x ^ 2 + y ^ 2) z
  | .N => hamN (x ^ 2 + y ^ 2) z
  | .iS => (hamS (x ^ 2 + y ^ 2) z)⁻¹
  | .iR => (x ^ 2 + y ^ 2)⁻¹
  | .W => (1 + hamM (x ^ 2 + y ^ 2) z ^ 2)⁻¹
  | .phi => arctan2one (hamM (x ^ 2 + y ^ 2) z)

/-- Value of an expression. -/
noncomputable def Ex.eval (x y z : ℝ) : Ex → ℝ
  | .v a => a.val x y z
  | .c q => q
  | .add a b => a.eval x y z + b.eval x y z
  | .mul a b => a.eval x y z * b.eval x y z
  | .sub a b => a.eval x y z - b.eval x y z
  | .neg a => -a.eval x y z
  | .pow a n => a.eval x y z ^ n

/-- Derivative of `M`. -/
noncomputable def dM : Dir → Ex
  | .x => .mul (.mul (.v .x) (.v .M)) (.v .iS)
  | .y => .mul (.mul (.v .y) (.v .M)) (.v .iS)
  | .z => .mul (.add (.mul (.v .z) (.v .M)) (.v .N)) (.v .iS)

/-- Derivative of `N`. -/
noncomputable def dN : Dir → Ex
  | .x => .mul (.c (-1)) (.mul (.mul (.v .x) (.v .N)) (.v .iS))
  | .y => .mul (.c (-1)) (.mul (.mul (.v .y) (.v .N)) (.v .iS))
  | .z => .mul (.add (.v .M) (.mul (.c (-1)) (.mul (.v .z) (.v .N)))) (.v .iS)

/-- Derivative of a variable. -/
noncomputable def V.d (k : Dir) : V → Ex
  | .x => match k with
    | .x => .c 1
    | _ => .c 0
  | .y => match k with
    | .y => .c 1
    | _ => .c 0
  | .z => match k with
    | .z => .c 1
    | _ => .c 0
  | .M => dM k
  | .N => dN k
  | .iS => .mul (.c (-2)) (.mul (.mul (.v .iS) (.v .iS)) (.add (.mul (.v .M) (dM k)) (.mul (.v .N) (dN k))))
  | .iR => match k with
    | .x => .mul (.c (-2)) (.mul (.v .x) (.mul (.v .iR) (.v .iR)))
    | .y => .mul (.c (-2)) (.mul (.v .y) (.mul (.v .iR) (.v .iR)))
    | .z => .c 0
  | .W => .mul (.c (-2)) (.mul (.mul (.v .W) (.v .W)) (.mul (.v .M) (dM k)))
  | .phi => .mul (.c (-1)) (.mul (.v .W) (dM k))

/-- Derivative of an expression. -/
noncomputable def Ex.d (k : Dir) : Ex → Ex
  | .v a => a.d k
  | .c _ => .c 0
  | .add a b => .add (a.d k) (b.d k)
  | .mul a b => .add (.mul (a.d k) b) (.mul a (b.d k))
  | .sub a b => .sub (a.d k) (b.d k)
  | .neg a => .neg (a.d k)
  | .pow a n => .mul (.mul (.c n) (.pow a (n - 1))) (a.d k)

/-- Moving one coordinate. -/
def Dir.move (x y z : ℝ) (k : Dir) (t : ℝ) : ℝ × ℝ × ℝ := match k with
  | .x => (t, y, z)
  | .y => (x, t, z)
  | .z => (x, y, t)

/-- The coordinate. -/
def Dir.at (x y z : ℝ) : Dir → ℝ
  | .x => x
  | .y => y
  | .z => z

theorem r2_deriv (x y z : ℝ) (k : Dir) : HasDerivAt (fun t => (k.move x y z t).1 ^ 2 + (k.move x y z t).2.1 ^ 2)
    (match k with | .x => 2 * x | .y => 2 * y | .z => 0) (k.at x y z) := by
  cases k
  · have := (hasDerivAt_pow 2 x).add_const (y ^ 2)
    simpa [Dir.move, Dir.at] using this
  · have := (hasDerivAt_pow 2 y).const_add (x ^ 2)
    simpa [Dir.move, Dir.at] using this
  · exact hasDerivAt_const z (x ^ 2 + y ^ 2)

theorem z_deriv (x y z : ℝ) (k : Dir) : HasDerivAt (fun t => (k.move x y z t).2.2) (match k with | .z => 1 | _ => 0) (k.at x y z) := by
  cases k
  · exact hasDerivAt_const x z
  · exact hasDerivAt_const y z
  · exact hasDerivAt_id z

theorem move_at (x y z : ℝ) (k : Dir) : k.move x y z (k.at x y z) = (x, y, z) := by cases k <;> rfl

theorem MN_deriv {x y z : ℝ} (hz : 0 < z) (k : Dir) :
    HasDerivAt (fun t => hamM ((k.move x y z t).1 ^ 2 + (k.move x y z t).2.1 ^ 2) (k.move x y z t).2.2) ((dM k).eval x y z) (k.at x y z) ∧
    HasDerivAt (fun t => hamN ((k.move x y z t).1 ^ 2 + (k.move x y z t).2.1 ^ 2) (k.move x y z t).2.2) ((dN k).eval x y z) (k.at x y z) := by
  have h := hamM_deriv (r2_deriv x y z k) (z_deriv x y z k) (by rw [move_at]; exact hz)
  simp only [move_at] at h
  constructor
  · refine HasDerivAt.congr_deriv h.1 ?_
    cases k <;> simp only [dM, Ex.eval, V.val] <;> ring
  · refine HasDerivAt.congr_deriv h.2 ?_
    cases k <;> simp only [dN, Ex.eval, V.val] <;> ring

theorem V_deriv {x y z : ℝ} (hr : 0 < x ^ 2 + y ^ 2) (hz : 0 < z) (k : Dir) (a : V) :
    HasDerivAt (fun t => a.val (k.move x y z t).1 (k.move x y z t).2.1 (k.move x y z t).2.2) ((a.d k).eval x y z) (k.at x y z) := by
  have hMN := MN_deriv (x := x) (y := y) hz k
  have hM0 := hamM_pos (r2 := x ^ 2 + y ^ 2) hz
  have hS0 := hamS_pos (r2 := x ^ 2 + y ^ 2) hz
  cases a with
  | x => cases k
         · exact hasDerivAt_id x
         · exact hasDerivAt_const y x
         · exact hasDerivAt_const z x
  | y => cases k
         · exact hasDerivAt_const x y
         · exact hasDerivAt_id y
         · exact hasDerivAt_const z y
  | z => cases k
         · exact hasDerivAt_const x z
         · exact hasDerivAt_const y z
         · exact hasDerivAt_id z
  | M => exact hMN.1
  | N => exact hMN.2
  | iS =>
    have h1 := ((hMN.1.pow 2).add (hMN.2.pow 2))
    have h2 := h1.inv (by
      show hamM _ _ ^ 2 + hamN _ _ ^ 2 ≠ 0
      rw [move_at, ← hamS_eq]; exact hS0.ne')
    have h3 : HasDerivAt (fun t => (hamS ((k.move x y z t).1 ^ 2 + (k.move x y z t).2.1 ^ 2) (k.move x y z t).2.2)⁻¹) _ (k.at x y z) :=
      h2.congr_of_eventuallyEq (Filter.Eventually.of_forall fun t => by
        show (hamS _ _)⁻¹ = (hamM _ _ ^ 2 + hamN _ _ ^ 2)⁻¹
        rw [hamS_eq])
    refine HasDerivAt.congr_deriv h3 ?_
    · simp only [V.d, Ex.eval, V.val, Pi.add_apply, Pi.pow_apply, move_at, ← hamS_eq]
      norm_num; field_simp; ring
  | iR =>
    have h2 := (r2_deriv x y z k).inv (by rw [move_at]; exact hr.ne')
    refine HasDerivAt.congr_deriv h2 ?_
    · cases k <;> simp only [V.d, Ex.eval, V.val, move_at] <;> field_simp <;> ring
  | W =>
    have h2 := ((hMN.1.pow 2).const_add 1).inv (by
      show 1 + hamM _ _ ^ 2 ≠ 0
      positivity)
    refine HasDerivAt.congr_deriv h2 ?_
    · simp only [V.d, Ex.eval, V.val, Pi.pow_apply, move_at]
      norm_num; field_simp
  | phi =>
    have h2 := arctan2one_deriv hMN.1 (by rw [move_at]; exact hM0)
    refine HasDerivAt.congr_deriv h2 ?_
    · simp only [V.d, Ex.eval, V.val, move_at]; ring

/-- The symbolic derivative is the derivative. -/
theorem Ex_deriv {x y z : ℝ} (hr : 0 < x ^ 2 + y ^ 2) (hz : 0 < z) (k : Dir) (e : Ex) :
    HasDerivAt (fun t => e.eval (k.move x y z t).1 (k.move x y z t).2.1 (k.move x y z t).2.2) ((e.d k).eval x y z) (k.at x y z) := by
  induction e with
  | v a => exact V_deriv hr hz k a
  | c q => exact hasDerivAt_const _ q
  | add a b ha hb => exact ha.add hb
  | mul a b ha hb =>
    have h := ha.mul hb
    simp only [move_at] at h
    exact h
  | sub a b ha hb => exact ha.sub hb
  | neg a ha => exact ha.neg
  | pow a n ha =>
    have h := ha.pow n
    simp only [move_at] at h
    exact h

theorem eval_add (x y z : ℝ) (a b : Ex) : (a + b).eval x y z = a.eval x y z + b.eval x y z := rfl
theorem eval_mul (x y z : ℝ) (a b : Ex) : (a * b).eval x y z = a.eval x y z * b.eval x y z := rfl
theorem eval_sub (x y z : ℝ) (a b : Ex) : (a - b).eval x y z = a.eval x y z - b.eval x y z := rfl
theorem eval_neg (x y z : ℝ) (a : Ex) : (-a).eval x y z = -a.eval x y z := rfl
theorem eval_pow (x y z : ℝ) (a : Ex) (n : ℕ) : (a ^ n).eval x y z = a.eval x y z ^ n := rfl
theorem d_add (k : Dir) (a b : Ex) : (a + b).d k = a.d k + b.d k := rfl
theorem d_mul (k : Dir) (a b : Ex) : (a * b).d k = a.d k * b + a * b.d k := rfl
theorem d_sub (k : Dir) (a b : Ex) : (a - b).d k = a.d k - b.d k := rfl
theorem d_neg (k : Dir) (a : Ex) : (-a).d k = -(a.d k) := rfl
theorem d_pow (k : Dir) (a : Ex) (n : ℕ) : (a ^ n).d k = Ex.c n * a ^ (n - 1) * a.d k := rfl

end CM.Ref.Hertz
