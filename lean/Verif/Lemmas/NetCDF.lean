import Verif.Spec.NetCDF
import Mathlib.Tactic.Common
import Mathlib.Tactic.Ring
import Mathlib.Tactic.Linarith
/-!
# Lemmas on the frame database
-/
namespace CM.NetCDF

/-- What every call preserves. -/
structure Ext (C C' : File) : Prop where
  vars : ∀ n var, C.vars n = some var → ∃ var', C'.vars n = some var' ∧ var'.kind = var.kind ∧ var'.framed = var.framed ∧ var'.dims = var.dims
  frames : C.frames ≤ C'.frames
  defined : C.defined = true → C'.defined = true ∧ C'.shape = C.shape ∧ C'.shape2 = C.shape2
  double : C'.double = C.double
  framed : ∀ n var', n ≠ "h" → C.vars n = none → C'.vars n = some var' → var'.framed = true

lemma Ext.refl (C : File) : Ext C C :=
  ⟨fun _ var h => ⟨var, h, rfl, rfl, rfl⟩, le_rfl, fun h => ⟨h, rfl, rfl⟩, rfl, fun n var' _ h h' => by rw [h] at h'; cases h'⟩

lemma Ext.trans {C C' C'' : File} (h : Ext C C') (h' : Ext C' C'') : Ext C C'' := by
  refine ⟨fun n var hv => ?_, h.frames.trans h'.frames, fun hd => ?_, h'.double.trans h.double, fun n var'' hn h0 h2 => ?_⟩
  · obtain ⟨v1, a1, a2, a3, a4⟩ := h.vars n var hv
    obtain ⟨v2, b1, b2, b3, b4⟩ := h'.vars n v1 a1
    exact ⟨v2, b1, b2.trans a2, b3.trans a3, b4.trans a4⟩
  · obtain ⟨a, b, c⟩ := h.defined hd
    obtain ⟨a', b', c'⟩ := h'.defined a
    exact ⟨a', b'.trans b, c'.trans c⟩
  · cases h1 : C'.vars n with
    | none => exact h'.framed n var'' hn h1 h2
    | some v1 =>
      obtain ⟨v2, b1, _, b3, _⟩ := h'.vars n v1 h1
      rw [h2] at b1
      injection b1 with b1
      rw [b1, b3]
      exact h.framed n v1 hn h0 h1

/-- What a call preserves of one frame of one variable. -/
def Same (j : ℕ) (n : String) (C C' : File) : Prop :=
  ∀ var, C.vars n = some var → var.framed = true → ∃ var', C'.vars n = some var' ∧ var'.data j = var.data j

lemma Same.refl (j : ℕ) (n : String) (C : File) : Same j n C C := fun var h _ => ⟨var, h, rfl⟩

lemma Same.trans {j : ℕ} {n : String} {C C' C'' : File} (h : Same j n C C') (hx : Ext C C') (h' : Same j n C' C'') : Same j n C C'' := by
  intro var hv hf
  obtain ⟨v1, a1, a2⟩ := h var hv hf
  obtain ⟨v1', b1, _, b3, _⟩ := hx.vars n var hv
  rw [a1] at b1
  injection b1 with b1
  obtain ⟨v2, c1, c2⟩ := h' v1 a1 (by rw [b1, b3, hf])
  exact ⟨v2, c1, c2.trans a2⟩

lemma add_ext (C : File) (n : String) (k : Kind) (f : Bool) (dims : List ℕ) (hn : C.vars n = none) (hf : n ≠ "h" → f = true) (j : ℕ) (m : String) :
    Ext C (C.add n k f dims) ∧ Same j m C (C.add n k f dims) := by
  have hne : ∀ s var, C.vars s = some var → s ≠ n := by
    intro s var hs h
    rw [h, hn] at hs
    cases hs
  refine ⟨⟨fun s var hs => ?_, le_rfl, fun h => ⟨h, rfl, rfl⟩, rfl, fun s var' hs h0 h1 => ?_⟩, fun var hv _ => ?_⟩
  · exact ⟨var, by simp [File.add, hne s var hs, hs], rfl, rfl, rfl⟩
  · by_cases h : s = n
    · simp only [File.add, h, if_true, Option.some.injEq] at h1
      rw [← h1]
      exact hf (h ▸ hs)
    · simp only [File.add, h, if_false, h0] at h1
      cases h1
  · exact ⟨var, by simp [File.add, hne m var hv, hv], rfl⟩

lemma createIfMissing_ext (C : File) (n : String) (v : Value) (sh : Option (List ℕ)) (C' : File) (h : createIfMissing C n v sh = .ok C') (j : ℕ) (m : String) :
    Ext C C' ∧ Same j m C C' := by
  unfold createIfMissing at h
  cases hn : C.vars n with
  | some var =>
    rw [hn] at h
    injection h with h
    rw [← h]
    exact ⟨Ext.refl C, Same.refl j m C⟩
  | none =>
    rw [hn] at h
    have ha : ∀ k dims, C' = C.add n k true dims → Ext C C' ∧ Same j m C C' := by
      rintro k dims rfl
      exact add_ext C n k true dims hn (fun _ => rfl) j m
    cases v with
    | int z => simp only at h; split_ifs at h; exact ha _ _ (by injection h with h; exact h.symm)
    | real x => simp only at h; split_ifs at h; exact ha _ _ (by injection h with h; exact h.symm)
    | other => cases h
    | arr s g =>
      simp only at h
      by_cases h0 : sh.getD s = []
      · rw [if_pos h0] at h
        split_ifs at h
        exact ha _ _ (by injection h with h; exact h.symm)
      · rw [if_neg h0] at h
        cases hs : C.shape with
        | none => rw [hs] at h; cases h
        | some shp =>
          rw [hs] at h
          simp only at h
          by_cases h1 : sh.getD s = shp
          · rw [if_pos h1] at h
            split_ifs at h
            · exact ha _ _ (by injection h with h; exact h.symm)
            · exact ha _ _ (by injection h with h; exact h.symm)
          · rw [if_neg h1] at h
            cases hs2 : C.shape2 with
            | none => rw [hs2] at h; simp only at h; split_ifs at h
            | some p =>
              rw [hs2] at h
              simp only at h
              split_ifs at h
              exact ha _ _ (by injection h with h; exact h.symm)

/-- Replacing the contents of one variable. -/
lemma replace_ext (C : File) (n : String) (var : Var) (hv : C.vars n = some var) (data : ℕ → List ℕ → Option ℝ) (f : ℕ) (hf : C.frames ≤ f) (j : ℕ) (m : String)
    (hj : n = m → var.framed = true → data j = var.data j) :
    Ext C { C with frames := f, vars := fun s => if s = n then some { var with data := data } else C.vars s }
    ∧ Same j m C { C with frames := f, vars := fun s => if s = n then some { var with data := data } else C.vars s } := by
  refine ⟨⟨fun s var' hs => ?_, hf, fun h => ⟨h, rfl, rfl⟩, rfl, fun s var' hs h0 h1 => ?_⟩, fun var' hv' hf' => ?_⟩
  · by_cases h : s = n
    · refine ⟨{ var with data := data }, by simp [h], ?_⟩
      rw [h, hv] at hs
      injection hs with hs
      rw [← hs]
      exact ⟨rfl, rfl, rfl⟩
    · exact ⟨var', by simp [h, hs], rfl, rfl, rfl⟩
  · by_cases h : s = n
    · rw [h, hv] at h0; cases h0
    · simp only [h, if_false, h0] at h1
      cases h1
  · by_cases h : m = n
    · refine ⟨{ var with data := data }, by simp [h], ?_⟩
      rw [h, hv] at hv'
      injection hv' with hv'
      rw [← hv'] at hf' ⊢
      exact hj h.symm hf'
    · exact ⟨var', by simp [h, hv'], rfl⟩

lemma assign_ext (rnd : ℝ → ℝ) (C : File) (i : ℤ) (n : String) (v : Value) (j : ℕ) (m : String) (hj : ¬ (n = m ∧ i = j)) :
    Ext C (assign rnd C i n v).2 ∧ Same j m C (assign rnd C i n v).2 := by
  unfold assign
  cases hn : C.vars n with
  | none => exact ⟨Ext.refl C, Same.refl j m C⟩
  | some var =>
    simp only
    by_cases h1 : i < 0
    · rw [if_pos h1]; exact ⟨Ext.refl C, Same.refl j m C⟩
    · rw [if_neg h1]
      generalize hd : (if var.framed = true then var.dims else var.dims.tail) = dims
      cases he : v.entries dims with
      | none => exact ⟨Ext.refl C, Same.refl j m C⟩
      | some g =>
        simp only
        split_ifs with h2 h3 h4
        · exact ⟨Ext.refl C, Same.refl j m C⟩
        · refine replace_ext C n var hn _ _ (le_max_left _ _) j m (fun hm _ => ?_)
          funext idx
          rw [if_neg]
          rintro ⟨h, _⟩
          exact hj ⟨hm, by rw [h]; omega⟩
        · exact ⟨Ext.refl C, Same.refl j m C⟩
        · exact replace_ext C n var hn _ C.frames le_rfl j m (fun _ hf => absurd hf h3)

lemma frameSet_ext (rnd : ℝ → ℝ) (C : File) (F : Frame) (n : String) (v : Value) (j : ℕ) (m : String) (hj : ¬ (n = m ∧ F.i = j)) :
    Ext C (frameSet rnd C F n v).2.1 ∧ Same j m C (frameSet rnd C F n v).2.1 := by
  unfold frameSet
  by_cases h1 : n = ""
  · rw [if_pos h1]; exact ⟨Ext.refl C, Same.refl j m C⟩
  by_cases h2 : isPrivate n = true
  · rw [if_neg h1, if_pos h2]; exact ⟨Ext.refl C, Same.refl j m C⟩
  · rw [if_neg h1, if_neg h2]
    cases hc : createIfMissing C n v none with
    | error e => exact ⟨Ext.refl C, Same.refl j m C⟩
    | ok C' =>
      obtain ⟨a1, a2⟩ := createIfMissing_ext C n v none C' hc j m
      obtain ⟨b1, b2⟩ := assign_ext rnd C' F.i n v j m hj
      exact ⟨a1.trans b1, a2.trans a1 b2⟩

lemma setGrid_ext (rnd : ℝ → ℝ) (C : File) (F : Frame) (n : String) (nx ny : ℕ) (g : ℕ → ℕ → ℝ) (x0 y0 : ℕ) (j : ℕ) (m : String) (hj : ¬ (n = m ∧ F.i = j)) :
    Ext C (setGrid rnd C F n nx ny g x0 y0).2 ∧ Same j m C (setGrid rnd C F n nx ny g x0 y0).2 := by
  unfold setGrid
  cases hs : C.shape with
  | none => exact ⟨Ext.refl C, Same.refl j m C⟩
  | some sh =>
    simp only
    cases hc : createIfMissing C n (.arr [nx, ny] fun l => g (l.headD 0) (l.tail.headD 0)) (some sh) with
    | error e => exact ⟨Ext.refl C, Same.refl j m C⟩
    | ok C' =>
      have hC := createIfMissing_ext C n _ (some sh) C' hc j m
      obtain ⟨a1, a2⟩ := hC
      simp only
      cases hn : C'.vars n with
      | none => exact ⟨a1, a2⟩
      | some var =>
        simp only
        split_ifs with h1
        · exact ⟨a1, a2⟩
        · split
          · rename_i NX NY _ _
            split_ifs with h2
            · exact ⟨a1, a2⟩
            · obtain ⟨b1, b2⟩ := replace_ext C' n var hn (fun j' idx => match idx with
                  | [a, b] => if j' = F.i.toNat ∧ x0 ≤ a ∧ a < x0 + nx ∧ y0 ≤ b ∧ b < y0 + ny then entry rnd var.kind (fun _ => g (a - x0) (b - y0)) [] else var.data j' idx
                  | _ => var.data j' idx) (max C'.frames (F.i.toNat + 1)) (le_max_left _ _) j m (by
                intro hm _
                funext idx
                split
                · rw [if_neg]
                  rintro ⟨h, _⟩
                  exact hj ⟨hm, by rw [h]; omega⟩
                · rfl)
              exact ⟨a1.trans b1, a2.trans a1 b2⟩
          · exact ⟨a1, a2⟩

lemma defineStructure_ext (C : File) (hd : C.defined = false) (s : List ℕ) (j : ℕ) (m : String) :
    Ext C (defineStructure C s).2 ∧ Same j m C (defineStructure C s).2 := by
  have h : ∀ C' : File, C'.vars = C.vars → C'.frames = C.frames → C'.double = C.double → Ext C C' ∧ Same j m C C' := by
    intro C' h1 h2 h3
    refine ⟨⟨fun n var hv => ⟨var, by rw [h1]; exact hv, rfl, rfl, rfl⟩, by rw [h2], fun h => absurd (hd.symm.trans h) (by simp), h3, fun n var' _ h0 h' => ?_⟩,
      fun var hv _ => ⟨var, by rw [h1]; exact hv, rfl⟩⟩
    rw [h1, h0] at h'
    cases h'
  unfold defineStructure
  simp only
  split <;> exact h _ rfl rfl rfl

lemma setShape_ext (C : File) (s : List ℕ) (ndof : Option ℕ) (j : ℕ) (m : String) :
    Ext C (setShape C s ndof).2 ∧ Same j m C (setShape C s ndof).2 := by
  have hr : Ext C C ∧ Same j m C C := ⟨Ext.refl C, Same.refl j m C⟩
  unfold setShape
  cases hd : C.defined with
  | true =>
    simp only [if_true]
    cases C.shape with
    | none => exact hr
    | some sh =>
      simp only
      cases hs : isSingle ndof with
      | true =>
        simp only [if_true]
        cases allEqual s sh with
        | error e => exact hr
        | ok b =>
          cases b
          · simp only; split_ifs <;> exact hr
          · exact hr
      | false =>
        simp only [Bool.false_eq_true, if_false]
        cases allEqual (ndof.getD 1 :: s) sh with
        | error e => exact hr
        | ok b => cases b <;> exact hr
  | false =>
    simp only [Bool.false_eq_true, if_false]
    split_ifs
    · exact defineStructure_ext C hd _ j m
    · exact defineStructure_ext C hd _ j m

lemma setRigid_ext (C : File) (hx hy : ℕ) (h : ℕ → ℕ → ℝ) (ndof : Option ℕ) (j : ℕ) (m : String) :
    Ext C (setRigid C hx hy h ndof).2 ∧ (m ≠ "h" → Same j m C (setRigid C hx hy h ndof).2) := by
  obtain ⟨a1, a2⟩ := setShape_ext C [hx, hy] ndof j m
  unfold setRigid
  cases hr : setShape C [hx, hy] ndof with
  | mk r C' =>
    rw [hr] at a1 a2
    simp only at a1 a2
    cases r with
    | error e => exact ⟨a1, fun _ => a2⟩
    | ok u =>
      simp only
      have hadd : Ext C' (ensureH C' hx hy) ∧ Same j m C' (ensureH C' hx hy) := by
        unfold ensureH
        cases hv : C'.vars "h" with
        | some var => exact ⟨Ext.refl C', Same.refl j m C'⟩
        | none => exact add_ext C' "h" _ _ _ hv (fun h => absurd rfl h) j m
      generalize ensureH C' hx hy = C'' at hadd ⊢
      obtain ⟨b1, b2⟩ := hadd
      cases hv : C''.vars "h" with
      | none => exact ⟨a1.trans b1, fun _ => a2.trans a1 b2⟩
      | some var =>
        simp only
        split_ifs with hcond
        · obtain ⟨c1, c2⟩ := replace_ext C'' "h" var hv (fun _ idx => match idx with
            | [a, b] => if a < hx ∧ b < hy then some (h a b) else none
            | _ => none) C''.frames le_rfl j m (fun _ hf => by rw [hcond.1] at hf; cases hf)
          exact ⟨a1.trans (b1.trans c1), fun _ => a2.trans a1 (b2.trans b1 c2)⟩
        · exact ⟨a1.trans b1, fun _ => a2.trans a1 b2⟩

lemma frame_number (C : File) (i : ℤ) (F : Frame) (h : frame C i = .ok F) : F.i = C.frameNumber i := by
  unfold frame at h
  unfold File.frameNumber
  split_ifs at h ⊢ with h1 h2
  · injection h with h; rw [← h]
  · injection h with h; rw [← h]

lemma step_ext (rnd : ℝ → ℝ) (C : File) (op : Op) (j : ℕ) (m : String) :
    Ext C (step rnd C op).2 ∧ (m ≠ "h" → ¬ Touches C j m op → Same j m C (step rnd C op).2) := by
  cases op with
  | write i n v =>
    simp only [step]
    cases hf : frame C i with
    | error e => exact ⟨Ext.refl C, fun _ _ => Same.refl j m C⟩
    | ok F =>
      simp only
      have hnum := frame_number C i F hf
      have h1 := frameSet_ext rnd C F n v (if F.i = j then j + 1 else j) m (by
        rintro ⟨_, h⟩
        split_ifs at h with h'
        · push_cast at h; omega
        · exact h' h)
      refine ⟨h1.1, fun _ ht => (frameSet_ext rnd C F n v j m ?_).2⟩
      rintro ⟨h2, h3⟩
      exact ht ⟨h2, by rw [← hnum]; exact h3⟩
  | grid i n nx ny g x0 y0 =>
    simp only [step]
    cases hf : frame C i with
    | error e => exact ⟨Ext.refl C, fun _ _ => Same.refl j m C⟩
    | ok F =>
      simp only
      have hnum := frame_number C i F hf
      have h1 := setGrid_ext rnd C F n nx ny g x0 y0 (if F.i = j then j + 1 else j) m (by
        rintro ⟨_, h⟩
        split_ifs at h with h'
        · push_cast at h; omega
        · exact h' h)
      refine ⟨h1.1, fun _ ht => (setGrid_ext rnd C F n nx ny g x0 y0 j m ?_).2⟩
      rintro ⟨h2, h3⟩
      exact ht ⟨h2, by rw [← hnum]; exact h3⟩
  | shape s ndof =>
    obtain ⟨a, b⟩ := setShape_ext C s ndof j m
    exact ⟨a, fun _ _ => b⟩
  | rigid hx hy h ndof =>
    obtain ⟨a, b⟩ := setRigid_ext C hx hy h ndof j m
    exact ⟨a, fun hm _ => b hm⟩
  | next =>
    have h : ∀ c : ℤ, Ext C { C with cur := c } ∧ Same j m C { C with cur := c } := fun c =>
      ⟨⟨fun n var hv => ⟨var, hv, rfl, rfl, rfl⟩, le_rfl, fun h => ⟨h, rfl, rfl⟩, rfl, fun n var' _ h0 h' => by
        change C.vars n = some var' at h'
        rw [h0] at h'; cases h'⟩, fun var hv _ => ⟨var, hv, rfl⟩⟩
    simp only [step, nextFrame]
    cases frame C C.cur with
    | error e => exact ⟨Ext.refl C, fun _ _ => Same.refl j m C⟩
    | ok F => exact ⟨(h _).1, fun _ _ => (h _).2⟩
  | cursor n =>
    refine ⟨⟨fun n var hv => ⟨var, hv, rfl, rfl, rfl⟩, le_rfl, fun h => ⟨h, rfl, rfl⟩, rfl, fun n var' _ h0 h' => by
        change C.vars n = some var' at h'
        rw [h0] at h'; cases h'⟩, fun _ _ var hv _ => ⟨var, hv, rfl⟩⟩

lemma run_ext (rnd : ℝ → ℝ) (j : ℕ) (m : String) (hm : m ≠ "h") (ops : List Op) : ∀ C : File, Ext C (run rnd C ops) ∧ (Untouched rnd j m C ops → Same j m C (run rnd C ops)) := by
  induction ops with
  | nil => intro C; exact ⟨Ext.refl C, fun _ => Same.refl j m C⟩
  | cons op ops ih =>
    intro C
    obtain ⟨a1, a2⟩ := step_ext rnd C op j m
    obtain ⟨b1, b2⟩ := ih (step rnd C op).2
    simp only [run, List.foldl_cons] at b1 b2 ⊢
    exact ⟨a1.trans b1, fun hu => (a2 hm hu.1).trans a1 (b2 hu.2)⟩

/-- Variables other than the rigid surface are stored by frame. -/
lemma run_framed (rnd : ℝ → ℝ) (d : Bool) (f : ℕ) (ops : List Op) (n : String) (hn : n ≠ "h") (var : Var) (h : (run rnd (create d f) ops).vars n = some var) :
    var.framed = true := (run_ext rnd 0 n hn ops (create d f)).1.framed n var hn rfl h

/-- What a successful write leaves behind. -/
lemma assign_ok (rnd : ℝ → ℝ) (C : File) (i : ℤ) (n : String) (v : Value) (hfr : ∀ var, C.vars n = some var → var.framed = true)
    (h : (assign rnd C i n v).1 = .ok ()) :
    ∃ var g, 0 ≤ i ∧ C.vars n = some var ∧ v.entries var.dims = some g ∧ i.toNat < (assign rnd C i n v).2.frames
      ∧ ∃ var', (assign rnd C i n v).2.vars n = some var' ∧ var'.kind = var.kind ∧ var'.framed = true ∧ var'.dims = var.dims
        ∧ ∀ idx, inside var.dims idx = true → ∃ x, convert rnd var.kind (g idx) = .ok x ∧ var'.data i.toNat idx = some x := by
  unfold assign at h ⊢
  cases hv : C.vars n with
  | none => rw [hv] at h; cases h
  | some var =>
    have hf := hfr var hv
    rw [hv] at h
    have hd : (if var.framed = true then var.dims else var.dims.tail) = var.dims := if_pos hf
    simp only at h ⊢
    generalize (if var.framed = true then var.dims else var.dims.tail) = dims at h hd ⊢
    subst hd
    simp only [hf, if_true] at h ⊢
    by_cases h1 : i < 0
    · rw [if_pos h1] at h; cases h
    rw [if_neg h1] at h ⊢
    cases he : v.entries var.dims with
    | none => rw [he] at h; cases h
    | some g =>
      rw [he] at h
      simp only at h ⊢
      by_cases h2 : ∃ idx, inside var.dims idx = true ∧ ∃ e, convert rnd var.kind (g idx) = .error e
      · rw [if_pos h2] at h; cases h
      rw [if_neg h2]
      refine ⟨var, g, by omega, rfl, he, ?_, { var with data := fun j idx => if j = i.toNat ∧ inside var.dims idx = true then entry rnd var.kind g idx else var.data j idx }, ?_, rfl, hf, rfl, fun idx hidx => ?_⟩
      · change i.toNat < max C.frames (i.toNat + 1)
        omega
      · simp only [if_true, hf]
      cases hc : convert rnd var.kind (g idx) with
      | error e => exact absurd ⟨idx, hidx, e, hc⟩ h2
      | ok x =>
        refine ⟨x, rfl, ?_⟩
        simp only [hidx, and_self, if_true]
        unfold entry
        rw [hc]

end CM.NetCDF
