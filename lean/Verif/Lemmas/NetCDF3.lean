import Verif.Spec.NetCDFContainer
import Verif.Lemmas.NetCDF2
/-!
# Lemmas on the data of the whole file
-/
namespace CM.NetCDF

lemma inside_iff' (dims idx : List ℕ) : inside dims idx = true ↔ Inside dims idx := by
  induction dims generalizing idx with
  | nil => cases idx <;> simp [inside, Inside]
  | cons d ds ih =>
    cases idx with
    | nil => simp [inside, Inside]
    | cons i is =>
      simp only [inside, Bool.and_eq_true, decide_eq_true_eq, ih, Inside, List.length_cons, Nat.add_right_cancel_iff]
      constructor
      · rintro ⟨h1, h2, h3⟩
        refine ⟨h2, fun k hk hk' => ?_⟩
        cases k with
        | zero => exact h1
        | succ k => exact h3 k _ _
      · rintro ⟨h1, h2⟩
        exact ⟨h2 0 (by simp) (by simp), h1, fun k hk hk' => h2 (k + 1) (by simpa using hk) (by simpa using hk')⟩

lemma setShape_vars (C : File) (s : List ℕ) (nd : Option ℕ) : (setShape C s nd).2.vars = C.vars := by
  unfold setShape
  by_cases hd : C.defined = true
  · rw [if_pos hd]
    cases C.shape with
    | none => rfl
    | some sh =>
      simp only
      cases isSingle nd with
      | true =>
        simp only [if_true]
        cases allEqual s sh with
        | error e => rfl
        | ok b => cases b <;> (simp only) <;> split_ifs <;> rfl
      | false =>
        simp only [Bool.false_eq_true, if_false]
        cases allEqual (nd.getD 1 :: s) sh with
        | error e => rfl
        | ok b => cases b <;> rfl
  · rw [if_neg hd]
    have : ∀ s, (defineStructure C s).2.vars = C.vars := by
      intro s
      unfold defineStructure
      simp only
      split <;> rfl
    split_ifs <;> exact this _

lemma add_other (C : File) (n m : String) (k : Kind) (f : Bool) (d : List ℕ) (h : n ≠ m) : (C.add n k f d).vars m = C.vars m := by
  simp only [File.add]
  rw [if_neg h.symm]

lemma createIfMissing_other (C C' : File) (n m : String) (v : Value) (sh : Option (List ℕ)) (hc : createIfMissing C n v sh = .ok C') (hn : n ≠ m) :
    C'.vars m = C.vars m := by
  have hA : ∀ k f d, Except.ok (ε := PyErr) (C.add n k f d) = .ok C' → C'.vars m = C.vars m := by
    intro k f d he
    injection he with he
    rw [← he, add_other _ _ _ _ _ _ hn]
  unfold createIfMissing at hc
  cases hv : C.vars n with
  | some var => rw [hv] at hc; injection hc with hc; rw [hc]
  | none =>
    rw [hv] at hc
    cases v with
    | int z => simp only at hc; split_ifs at hc; exact hA _ _ _ hc
    | real x => simp only at hc; split_ifs at hc; exact hA _ _ _ hc
    | other => cases hc
    | arr s g =>
      simp only at hc
      by_cases hs : sh.getD s = []
      · rw [if_pos hs] at hc
        split_ifs at hc
        exact hA _ _ _ hc
      · rw [if_neg hs] at hc
        cases hsh : C.shape with
        | none => rw [hsh] at hc; cases hc
        | some shp =>
          rw [hsh] at hc
          simp only at hc
          by_cases h1 : sh.getD s = shp
          · rw [if_pos h1] at hc
            split_ifs at hc
            · exact hA _ _ _ hc
            · exact hA _ _ _ hc
          · rw [if_neg h1] at hc
            cases hs2 : C.shape2 with
            | none => rw [hs2] at hc; simp only at hc; split_ifs at hc
            | some p =>
              rw [hs2] at hc
              simp only at hc
              split_ifs at hc
              exact hA _ _ _ hc

lemma assign_other (rnd : ℝ → ℝ) (C : File) (i : ℤ) (n m : String) (v : Value) (hn : n ≠ m) : (assign rnd C i n v).2.vars m = C.vars m := by
  unfold assign
  cases C.vars n with
  | none => rfl
  | some var =>
    simp only
    by_cases h1 : i < 0
    · rw [if_pos h1]
    rw [if_neg h1]
    generalize (if var.framed = true then var.dims else var.dims.tail) = dims
    cases v.entries dims with
    | none => rfl
    | some g =>
      simp only
      split_ifs
      · rfl
      · simp only [if_neg hn.symm]
      · rfl
      · simp only [if_neg hn.symm]

/-- Calls leave the variables alone that they do not name. -/
lemma step_other (rnd : ℝ → ℝ) (C : File) (op : Op) (m : String) (ho : ¬ Names m (.base op)) : (step rnd C op).2.vars m = C.vars m := by
  cases op with
  | write i n v =>
    have ho : n ≠ m := ho
    simp only [step]
    cases frame C i with
    | error e => rfl
    | ok F =>
      simp only [frameSet]
      by_cases h1 : n = ""
      · rw [if_pos h1]
      by_cases h2 : isPrivate n = true
      · rw [if_neg h1, if_pos h2]
      rw [if_neg h1, if_neg h2]
      cases hc : createIfMissing C n v none with
      | error e => rfl
      | ok C2 => simp only; rw [assign_other rnd C2 F.i n m v ho, createIfMissing_other C C2 n m v none hc ho]
  | grid i n nx ny g x0 y0 =>
    have ho : n ≠ m := ho
    simp only [step]
    cases frame C i with
    | error e => rfl
    | ok F =>
      simp only [setGrid]
      cases C.shape with
      | none => rfl
      | some sh =>
        simp only
        cases hc : createIfMissing C n (.arr [nx, ny] fun l => g (l.headD 0) (l.tail.headD 0)) (some sh) with
        | error e => rfl
        | ok C2 =>
          have hc' := createIfMissing_other C C2 n m _ _ hc ho
          simp only
          cases C2.vars n with
          | none => exact hc'
          | some var =>
            simp only
            by_cases hF : F.i < 0
            · rw [if_pos hF]; exact hc'
            rw [if_neg hF]
            split
            · split_ifs
              · exact hc'
              · simp only [if_neg ho.symm]; exact hc'
            · exact hc'
  | shape s nd => simp only [step]; rw [setShape_vars]
  | rigid hx hy h nd =>
    have ho : m ≠ "h" := ho
    simp only [step, setRigid]
    cases hr : setShape C [hx, hy] nd with
    | mk r C' =>
      have hv : C'.vars = C.vars := by have := setShape_vars C [hx, hy] nd; rwa [hr] at this
      cases r with
      | error e => simp only; rw [hv]
      | ok u =>
        have hE : (ensureH C' hx hy).vars m = C.vars m := by
          unfold ensureH
          split
          · rw [hv]
          · rw [add_other _ _ _ _ _ _ ho.symm, hv]
        simp only
        generalize ensureH C' hx hy = C'' at hE ⊢
        split
        · exact hE
        · split_ifs
          · simp only [if_neg ho]; exact hE
          · exact hE
  | next =>
    simp only [step, nextFrame]
    cases frame C C.cur <;> rfl
  | cursor _ => rfl

lemma closedStep_vars (C : File) (op : Op) : (closedStep C op).2.vars = C.vars := by
  have hd : ∀ s, (closedStep.closedShape C s).2.vars = C.vars := by
    intro s
    unfold closedStep.closedShape
    cases hs : defineStructure C s with
    | mk r C' =>
      have : (defineStructure C s).2.vars = C.vars := by
        unfold defineStructure
        simp only
        split <;> rfl
      rw [hs] at this
      cases r <;> exact this
  cases op with
  | write i n v => simp only [closedStep]; split_ifs <;> rfl
  | grid i n nx ny g x0 y0 =>
    simp only [closedStep]
    split_ifs
    · rfl
    · cases C.shape <;> rfl
  | shape s nd => exact hd _
  | rigid hx hy h nd => exact hd _
  | next => simp only [closedStep]; split_ifs <;> rfl
  | cursor n => rfl

lemma assignWhole_other (C : File) (n m : String) (s : List ℕ) (g : List ℕ → ℝ) (hn : n ≠ m) : (assignWhole C n s g).2.vars m = C.vars m := by
  unfold assignWhole
  split
  · rfl
  · split_ifs
    · simp only [if_neg hn.symm]
    · rfl

lemma ensureWhole_other (C C' : File) (n m : String) (s : List ℕ) (h : ensureWhole C n s = .ok C') (hn : n ≠ m) : C'.vars m = C.vars m := by
  unfold ensureWhole at h
  split at h
  · injection h with h; rw [h]
  · split at h
    · cases h
    · split_ifs at h
      split at h
      · injection h with h; rw [← h, add_other _ _ _ _ _ _ hn]
      · cases h

/-- Calls leave the variables and attributes alone that they do not name. -/
lemma cstep_other (rnd : ℝ → ℝ) (c : Cont) (op : COp) (m : String) (ho : ¬ Names m op) :
    (cstep rnd c op).2.file.vars m = c.file.vars m ∧ (cstep rnd c op).2.attrs m = c.attrs m := by
  cases op with
  | base op =>
    simp only [cstep, and_true]
    by_cases hs : c.saved.isSome = true
    · rw [if_pos hs, closedStep_vars]
    · rw [if_neg hs, step_other rnd c.file op m ho]
  | set n v =>
    have ho : n ≠ m := ho
    simp only [cstep, contSet]
    split_ifs
    · exact ⟨rfl, rfl⟩
    · exact ⟨rfl, rfl⟩
    · exact ⟨rfl, rfl⟩
    · have hnc : ∀ v, (setNcAttr c n v).2.file.vars m = c.file.vars m ∧ (setNcAttr c n v).2.attrs m = c.attrs m := by
        intro v
        unfold setNcAttr
        split_ifs
        · exact ⟨rfl, rfl⟩
        · split
          · split_ifs
            · exact ⟨rfl, by simp only [if_neg ho.symm]⟩
            · exact ⟨rfl, rfl⟩
          · exact ⟨rfl, by simp only [if_neg ho.symm]⟩
      split
      · rename_i k s g
        split
        · exact ⟨rfl, rfl⟩
        · rename_i C hC
          exact ⟨by simp only; rw [assignWhole_other _ _ _ _ _ ho, ensureWhole_other _ _ _ _ _ hC ho], rfl⟩
      · exact hnc _
  | elastic hx hy h =>
    have ho : "elastic_surface" ≠ m := fun e => ho e.symm
    simp only [cstep, setElastic]
    split_ifs
    · exact ⟨rfl, rfl⟩
    · split
      · exact ⟨rfl, rfl⟩
      · rename_i C hC
        refine ⟨?_, rfl⟩
        simp only
        rw [assignWhole_other _ _ _ _ _ ho]
        split at hC
        · injection hC with hC; rw [hC]
        · split at hC
          · injection hC with hC; rw [← hC, add_other _ _ _ _ _ _ ho]
          · cases hC
  | close =>
    simp only [cstep, closeCont]
    cases c.saved <;> exact ⟨rfl, rfl⟩

lemma crun_other (rnd : ℝ → ℝ) (m : String) (ops : List COp) (c : Cont) (ho : ∀ op ∈ ops, ¬ Names m op) :
    (crun rnd c ops).file.vars m = c.file.vars m ∧ (crun rnd c ops).attrs m = c.attrs m := by
  induction ops generalizing c with
  | nil => exact ⟨rfl, rfl⟩
  | cons op ops ih =>
    obtain ⟨a, b⟩ := ih (cstep rnd c op).2 fun o h => ho o (by simp [h])
    obtain ⟨a', b'⟩ := cstep_other rnd c op m (ho op (by simp))
    exact ⟨a.trans a', b.trans b'⟩

end CM.NetCDF
