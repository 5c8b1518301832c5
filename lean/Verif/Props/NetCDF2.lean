import Verif.Props.NetCDF
/-!
# Properties of the frame database (C75-C78, C117-C119)
-/
namespace CM.NetCDF

/-! ## C75 -/

/-- **C75 (when the variable holds reals).** A real number written to a variable that was created by a real number is read back unchanged after any history. -/
theorem C75_real_partial (rnd : ℝ → ℝ) (d : Bool) (f : ℕ) (before after : List Op) (i : ℤ) (n : String) (x : ℝ) (hn : PlainName n)
    (hk : (run rnd (create d f) before).kindOf n = some .f8 ∨ (run rnd (create d f) before).kindOf n = none)
    (hok : (step rnd (run rnd (create d f) before) (.write i n (.real x))).1 = .ok ())
    (hu : Untouched rnd ((run rnd (create d f) before).frameNumber i) n (step rnd (run rnd (create d f) before) (.write i n (.real x))).2 after) :
    ∃ dims, (run rnd (create d f) (before ++ .write i n (.real x) :: after)).Reads ((run rnd (create d f) before).frameNumber i) n dims fun _ y => y = x := by
  obtain ⟨k, dims, h1, _, _, h3⟩ := C74_last_write rnd d f before after i n (.real x) hn hok hu
  have hk' : (step rnd (run rnd (create d f) before) (.write i n (.real x))).2.kindOf n = some .f8 := by
    rcases hk with hk | hk
    · have := C74_kind_fixed rnd _ n .f8 hk [.write i n (.real x)]
      exact this
    · exact C74_first_kind rnd _ i n (.real x) hn hk hok
  have hk2 := C74_kind_fixed rnd _ n .f8 hk' after
  rw [run_append] at h1
  change (run rnd (step rnd (run rnd (create d f) before) (.write i n (.real x))).2 after).kindOf n = some k at h1
  rw [hk2] at h1
  injection h1 with h1
  subst h1
  exact ⟨dims, h3⟩

/-- **C75, refuted.** After `frame0.n = m` with an integer `m`, writing any real number `x` between two integers to another frame succeeds, and reading it gives an integer: the value is lost, without an exception. -/
theorem C75_truncated_partial (rnd : ℝ → ℝ) (d : Bool) (f nx ny : ℕ) (n : String) (hn : PlainName n) (m : ℤ) (hm : -2 ^ 31 ≤ m ∧ m < 2 ^ 31)
    (x : ℝ) (hx : |x| < 2 ^ 31) (hint : ∀ z : ℤ, x ≠ z) :
    (step rnd (run rnd (create d f) [.shape [nx, ny] none, .write 0 n (.int m)]) (.write 1 n (.real x))).1 = .ok ()
    ∧ ∃ y : ℝ, y ≠ x ∧ |y| ≤ |x| ∧ (run rnd (create d f) [.shape [nx, ny] none, .write 0 n (.int m), .write 1 n (.real x)]).Reads 1 n [] fun _ z => z = y := by
  have hp : isPrivate n = false := hn.2.1
  have htm : truncate (m : ℝ) = m := by
    unfold truncate
    split_ifs <;> simp
  have htx : -2 ^ 31 ≤ truncate x ∧ truncate x < 2 ^ 31 := by
    have h := (truncate_keeps x).1.trans_lt hx
    rw [abs_lt] at h
    constructor
    · have : ((-2 ^ 31 : ℤ) : ℝ) < (truncate x : ℤ) := by push_cast at h ⊢; linarith
      exact (Int.cast_lt.1 this).le
    · have : ((truncate x : ℤ) : ℝ) < ((2 ^ 31 : ℤ) : ℝ) := by push_cast at h ⊢; linarith
      exact Int.cast_lt.1 this
  obtain ⟨h0, hk, hd⟩ := first_scalar rnd (run rnd (create d f) [.shape [nx, ny] none]) 0 n (.int m) hn le_rfl .i4 (by
      simp [run, step, setShape, create, isSingle, defineStructure, createIfMissing]) m rfl m (by simp only [convert, htm]; rw [if_pos hm])
  change (run rnd (create d f) [.shape [nx, ny] none, .write 0 n (.int m)]).kindOf n = _ at hk
  change (run rnd (create d f) [.shape [nx, ny] none, .write 0 n (.int m)]).dimsOf n = _ at hd
  have hfr := fun var => run_framed rnd d f [.shape [nx, ny] none, .write 0 n (.int m)] n hn.2.2 var
  have hok : (step rnd (run rnd (create d f) [.shape [nx, ny] none, .write 0 n (.int m)]) (.write 1 n (.real x))).1 = .ok () := by
    generalize run rnd (create d f) [.shape [nx, ny] none, .write 0 n (.int m)] = C at hk hd hfr
    obtain ⟨var, hv, hk'⟩ := Option.map_eq_some_iff.1 hk
    obtain ⟨var', hv', hd'⟩ := Option.map_eq_some_iff.1 hd
    rw [hv] at hv'
    injection hv' with hv'
    subst hv'
    have hF : frame C 1 = .ok ⟨1, fun _ => none⟩ := if_neg (by omega)
    have hc : createIfMissing C n (.real x) none = .ok C := by unfold createIfMissing; rw [hv]
    simp only [step, hF, frameSet]
    rw [if_neg hn.1, if_neg (by rw [hp]; simp), hc]
    exact assign_succeeds rnd C 1 n (.real x) var (fun _ => x) hv (hfr var hv) (by omega) (by rw [hd']; rfl) fun idx _ => ⟨truncate x, by rw [hk']; exact if_pos htx⟩
  refine ⟨hok, ?_⟩
  obtain ⟨k, dims, a1, a2, _, F, get, a3, a4, a5⟩ := C74_last_write rnd d f [.shape [nx, ny] none, .write 0 n (.int m)] [] 1 n (.real x) hn hok trivial
  have b1 := C74_kind_fixed rnd _ n .i4 hk [.write 1 n (.real x)]
  have b2 := C74_dims_fixed rnd _ n [] hd [.write 1 n (.real x)]
  have e1 : run rnd (run rnd (create d f) [.shape [nx, ny] none, .write 0 n (.int m)]) [.write 1 n (.real x)] = run rnd (create d f) [.shape [nx, ny] none, .write 0 n (.int m), .write 1 n (.real x)] := rfl
  rw [e1] at b1 b2
  change (run rnd (create d f) [.shape [nx, ny] none, .write 0 n (.int m), .write 1 n (.real x)]).kindOf n = some k at a1
  change (run rnd (create d f) [.shape [nx, ny] none, .write 0 n (.int m), .write 1 n (.real x)]).dimsOf n = some dims at a2
  rw [b1] at a1
  rw [b2] at a2
  injection a1 with a1
  injection a2 with a2
  subst a1 a2
  obtain ⟨y, c1, ⟨z, c2⟩, c3, _⟩ := a5 [] ⟨rfl, fun k h => absurd h (by simp)⟩
  refine ⟨y, fun h => hint z (h ▸ c2), c3, F, get, a3, a4, fun idx hidx => ⟨y, ?_, rfl⟩⟩
  have : idx = [] := List.length_eq_zero_iff.1 hidx.1
  rw [this]
  exact c1

example : PlainName "nsteps" ∧ ∀ z : ℤ, (1 / 2 : ℝ) ≠ z := by
  refine ⟨by unfold PlainName; decide, fun z h => ?_⟩
  have h' : (1 : ℝ) = 2 * z := by linarith
  have : (1 : ℤ) = 2 * z := by exact_mod_cast h'
  omega

/-! ## C76 -/

/-- **C76.** `get_next_frame` gives the frame at the cursor and moves the cursor by one … -/
theorem C76_next (C : File) (F : Frame) (C' : File) (h : nextFrame C = (.ok F, C')) : F.i = C.frameNumber C.cur ∧ C' = { C with cur := C.cur + 1 } := by
  unfold nextFrame at h
  cases hf : frame C C.cur with
  | error e => rw [hf] at h; cases h
  | ok G =>
    rw [hf] at h
    simp only [Prod.mk.injEq, Except.ok.injEq] at h
    obtain ⟨rfl, rfl⟩ := h
    exact ⟨frame_number C _ _ hf, rfl⟩

/-- Calls of `get_next_frame` in a row. -/
def nexts : ℕ → File → List ℤ × File
  | 0, C => ([], C)
  | m + 1, C => match nextFrame C with
    | (.ok F, C') => ((F.i :: (nexts m C').1), (nexts m C').2)
    | (.error _, C') => nexts m C'

/-- … so calls in a row give consecutive frames, whatever the file contains. -/
theorem C76_consecutive (m : ℕ) (C : File) (h : 0 ≤ C.cur) : (nexts m C).1 = (List.range m).map (fun k => C.cur + (k : ℕ)) ∧ (nexts m C).2 = { C with cur := C.cur + m } := by
  induction m generalizing C with
  | zero => exact ⟨rfl, by simp [nexts]⟩
  | succ m ih =>
    have hf : frame C C.cur = .ok ⟨C.cur, fun _ => none⟩ := if_neg (by omega)
    have hn : nextFrame C = (.ok ⟨C.cur, fun _ => none⟩, { C with cur := C.cur + 1 }) := by unfold nextFrame; rw [hf]
    obtain ⟨i1, i2⟩ := ih { C with cur := C.cur + 1 } (by simp only; omega)
    simp only [nexts, hn]
    rw [i1, i2]
    refine ⟨?_, by simp only [Nat.cast_add, Nat.cast_one]; congr 1; ring⟩
    rw [List.range_succ_eq_map, List.map_cons, List.map_map]
    congr 1
    · simp
    · apply List.map_congr_left
      intro a _
      simp only [Function.comp]
      push_cast
      ring

/-- **C76.** Negative indices count from the end … -/
theorem C76_negative (C : File) (hd : C.defined = true) (i : ℤ) (h1 : -(C.frames : ℤ) ≤ i) (h2 : i < 0) : frame C i = frame C (C.frames + i) := by
  unfold frame
  rw [if_pos h2, if_pos hd, if_neg (by omega), add_comm]

/-- … and reading through an index before the first frame raises `IndexError`, as does writing, without any change. -/
theorem C76_before_first (rnd : ℝ → ℝ) (C : File) (hd : C.defined = true) (i : ℤ) (h1 : i < -(C.frames : ℤ)) (n : String) (hn : PlainName n) (hv : (C.kindOf n).isSome) (v : Value) :
    ∃ F, frame C i = .ok F ∧ frameGet C F n = .error .indexError ∧ step rnd C (.write i n v) = (.error .indexError, C) := by
  obtain ⟨var, hv⟩ : ∃ var, C.vars n = some var := by
    simp only [File.kindOf, Option.isSome_map] at hv
    exact Option.isSome_iff_exists.1 hv
  have hF : frame C i = .ok ⟨i + C.frames, fun _ => none⟩ := by
    unfold frame
    rw [if_pos (by omega), if_pos hd]
  refine ⟨_, hF, ?_, ?_⟩
  · unfold frameGet
    rw [if_neg hn.1, if_neg (by rw [hn.2.1]; simp)]
    unfold fetch
    rw [hv]
    simp only
    rw [if_pos (by omega)]
  · have hc : createIfMissing C n v none = .ok C := by unfold createIfMissing; rw [hv]
    simp only [step, hF, frameSet]
    rw [if_neg hn.1, if_neg (by rw [hn.2.1]; simp), hc]
    simp only [assign, hv]
    rw [if_pos (by omega)]

/-- Frame numbers of a slice. -/
lemma slice_numbers (C : File) (hd : C.defined = true) (a b c : Option ℤ) (x y z : ℤ) (h : sliceIndices a b c C.frames = .ok (x, y, z)) (h0 : ∀ k ∈ pyRange x y z, 0 ≤ k) :
    ∃ l, getSlice C a b c = .ok l ∧ numbers l = pyRange x y z := by
  refine ⟨_, by unfold getSlice; rw [if_pos hd, h]; exact mapM_frame C _ h0, ?_⟩
  rw [numbers, List.map_map]
  conv_rhs => rw [← List.map_id (pyRange x y z)]
  rfl

/-- **C76.** A slice with a positive step selects, in increasing order, the frames from the start on, before the stop, at multiples of the step. -/
theorem C76_slice_forward (C : File) (hd : C.defined = true) (a b c : Option ℤ) (hc : 0 < c.getD 1) :
    ∃ l, getSlice C a b c = .ok l ∧ (numbers l).Pairwise (· < ·)
      ∧ ∀ k, k ∈ numbers l ↔ (0 ≤ k ∧ k < C.frames) ∧ clipped (a.getD 0) C.frames ≤ k ∧ (∀ e, b = some e → k < clipped e C.frames) ∧ c.getD 1 ∣ k - clipped (a.getD 0) C.frames := by
  have hcl : ∀ e : ℤ, 0 ≤ clipped e C.frames ∧ clipped e C.frames ≤ C.frames := by
    intro e
    unfold clipped
    split_ifs <;> omega
  have h : sliceIndices a b c C.frames = .ok (clipped (a.getD 0) C.frames, (b.map fun e => clipped e C.frames).getD C.frames, c.getD 1) := by
    unfold sliceIndices
    simp only [hc, if_true]
    rw [if_neg (by omega)]
    congr 1
    refine Prod.ext ?_ (Prod.ext ?_ rfl)
    · cases a with
      | none => simp [clipped]
      | some a => rfl
    · cases b with
      | none => rfl
      | some b => rfl
  obtain ⟨l, h1, h2⟩ := slice_numbers C hd a b c _ _ _ h (by
    intro k hk
    rw [mem_pyRange_pos _ _ _ hc] at hk
    exact (hcl _).1.trans hk.1)
  refine ⟨l, h1, by rw [h2]; exact pyRange_sorted_pos _ _ _ hc, fun k => ?_⟩
  rw [h2, mem_pyRange_pos _ _ _ hc]
  have hc0 := hcl (a.getD 0)
  cases b with
  | none =>
    simp only [Option.map_none, Option.getD_none, reduceCtorEq, false_implies, implies_true, true_and]
    constructor
    · rintro ⟨u1, u2, u3⟩; exact ⟨⟨by omega, u2⟩, u1, u3⟩
    · rintro ⟨⟨_, u2⟩, u1, u3⟩; exact ⟨u1, u2, u3⟩
  | some e =>
    have hce := hcl e
    simp only [Option.map_some, Option.getD_some, Option.some.injEq, forall_eq']
    constructor
    · rintro ⟨u1, u2, u3⟩; exact ⟨⟨by omega, by omega⟩, u1, u2, u3⟩
    · rintro ⟨_, u1, u2, u3⟩; exact ⟨u1, u2, u3⟩

/-- **C76.** With a negative step the frames come in decreasing order, from the start down to just after the stop. -/
theorem C76_slice_backward (C : File) (hd : C.defined = true) (a b : Option ℤ) (c : ℤ) (hc : c < 0)
    (ha : ∀ e, a = some e → 0 ≤ e + C.frames ∧ e < C.frames) (hb : ∀ e, b = some e → 0 ≤ e + C.frames ∧ e < C.frames) :
    ∃ l, getSlice C a b (some c) = .ok l ∧ (numbers l).Pairwise (· > ·)
      ∧ ∀ k, k ∈ numbers l ↔ (0 ≤ k ∧ k < C.frames) ∧ k ≤ C.frameNumber (a.getD (-1)) ∧ (∀ e, b = some e → C.frameNumber e < k) ∧ c ∣ k - C.frameNumber (a.getD (-1)) := by
  have h : sliceIndices a b (some c) C.frames = .ok (C.frameNumber (a.getD (-1)), (b.map fun e => C.frameNumber e).getD (-1), c) := by
    unfold sliceIndices
    have hc' : ¬ 0 < c := by omega
    simp only [Option.getD_some, hc', if_false]
    rw [if_neg (by omega)]
    congr 1
    have hcl : ∀ e : ℤ, 0 ≤ e + C.frames ∧ e < C.frames → (if e < 0 then max (e + C.frames) (-1) else min e ((C.frames : ℤ) - 1)) = C.frameNumber e := by
      intro e he
      unfold File.frameNumber
      split_ifs <;> omega
    refine Prod.ext ?_ (Prod.ext ?_ rfl)
    · cases a with
      | none => simp only [Option.map_none, Option.getD_none, File.frameNumber]; rw [if_pos (by omega)]; omega
      | some a => exact hcl a (ha a rfl)
    · cases b with
      | none => rfl
      | some b => exact hcl b (hb b rfl)
  have hn : ∀ e : ℤ, 0 ≤ e + C.frames ∧ e < C.frames → 0 ≤ C.frameNumber e ∧ C.frameNumber e < C.frames := by
    intro e he
    unfold File.frameNumber
    split_ifs <;> omega
  have h0 : C.frameNumber (a.getD (-1)) < C.frames := by
    cases a with
    | none => simp [File.frameNumber]
    | some a => exact (hn a (ha a rfl)).2
  have h1 : -1 ≤ (b.map fun e => C.frameNumber e).getD (-1) := by
    cases b with
    | none => simp
    | some b => exact le_trans (by omega) (hn b (hb b rfl)).1
  obtain ⟨l, h2, h3⟩ := slice_numbers C hd a b (some c) _ _ _ h (by
    intro k hk
    rw [mem_pyRange_neg _ _ _ hc] at hk
    omega)
  refine ⟨l, h2, by rw [h3]; exact pyRange_sorted_neg _ _ _ hc, fun k => ?_⟩
  rw [h3, mem_pyRange_neg _ _ _ hc]
  cases b with
  | none =>
    simp only [Option.map_none, Option.getD_none, reduceCtorEq, false_implies, implies_true, true_and]
    constructor
    · rintro ⟨u1, u2, u3⟩; exact ⟨⟨by omega, by omega⟩, u2, u3⟩
    · rintro ⟨⟨u0, _⟩, u1, u3⟩; exact ⟨by omega, u1, u3⟩
  | some e =>
    have hce := hn e (hb e rfl)
    simp only [Option.map_some, Option.getD_some, Option.some.injEq, forall_eq']
    constructor
    · rintro ⟨u1, u2, u3⟩; exact ⟨⟨by omega, by omega⟩, u2, u1, u3⟩
    · rintro ⟨_, u1, u2, u3⟩; exact ⟨u2, u1, u3⟩

/-- **C76.** Iterating gives all frames in order, as does the slice `[:]`; a step of zero raises `ValueError`. -/
theorem C76_iterate (C : File) (hd : C.defined = true) :
    ∃ l, iterate C = .ok l ∧ numbers l = ((List.range C.frames).map fun k : ℕ => (k : ℤ)) ∧ ∀ a b, getSlice C a b (some 0) = .error .valueError := by
  refine ⟨_, by
    unfold iterate
    rw [if_pos hd]
    have : (List.range C.frames).mapM (fun k => frame C (k : ℕ)) = ((List.range C.frames).map fun k : ℕ => (k : ℤ)).mapM (frame C) := by rw [List.mapM_map]; rfl
    rw [this]
    exact mapM_frame C _ (by
      intro k hk
      obtain ⟨m, _, rfl⟩ := List.mem_map.1 hk
      omega), ?_, ?_⟩
  · rw [numbers, List.map_map]
    conv_rhs => rw [← List.map_id ((List.range C.frames).map fun k : ℕ => (k : ℤ))]
    rfl
  · intro a b
    unfold getSlice
    rw [if_pos hd]
    rfl

example : (create true 0).cur = 0 ∧ (run (fun x => x) (create true 0) [.shape [2, 3] none]).defined = true := ⟨rfl, rfl⟩

end CM.NetCDF
