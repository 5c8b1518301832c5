import Verif.Spec.SolverMemory
import Verif.Props.CCGDemo
import Mathlib.Tactic
/-!
# Arrays given to and taken from the solver (C202, C203)
-/
namespace CM.CCG
open Finset CM.Spec
variable {ι K : Type}

@[simp] lemma write_self (M : Mem ι K) (r : ℕ) (a : ι → K) : (M.write r a).cells r = a := by simp [Mem.write]
lemma write_other (M : Mem ι K) {r q : ℕ} (a : ι → K) (h : q ≠ r) : (M.write r a).cells q = M.cells q := by simp [Mem.write, h]
@[simp] lemma write_next (M : Mem ι K) (r : ℕ) (a : ι → K) : (M.write r a).next = M.next := rfl
@[simp] lemma alloc_self (M : Mem ι K) (a : ι → K) : (M.alloc a).2.cells M.next = a := by simp [Mem.alloc]
lemma alloc_other (M : Mem ι K) {q : ℕ} (a : ι → K) (h : q ≠ M.next) : (M.alloc a).2.cells q = M.cells q := by simp [Mem.alloc, h]
@[simp] lemma alloc_fst (M : Mem ι K) (a : ι → K) : (M.alloc a).1 = M.next := rfl
@[simp] lemma alloc_next (M : Mem ι K) (a : ι → K) : (M.alloc a).2.next = M.next + 1 := rfl

section
variable [Fintype ι] [Field K] [LinearOrder K]

/-- `f_r`, `u_r`, `t_r` are three different arrays made since the call. -/
structure Own (n : ℕ) (s : HState ι K) (M : Mem ι K) : Prop where
  nf : n ≤ s.f
  nu : n ≤ s.u
  nt : n ≤ s.t
  f : s.f < M.next
  u : s.u < M.next
  t : s.t < M.next
  fu : s.f ≠ s.u
  ft : s.f ≠ s.t
  ut : s.u ≠ s.t

lemma mixBranch_t (P : Problem ι K) (o : Options ι K) (s : State ι K) (m : Mid ι K) (h : mixBranch P o s = .ok m) : m.t = s.t := by
  unfold mixBranch at h
  simp only at h
  split at h
  · cases h
  · injection h with h
    rw [← h]

lemma hbranch_ok (P : Problem ι K) (o : Options ι K) (n : ℕ) (s : HState ι K) (M : Mem ι K) (hs : Own n s M) :
    (∀ e, branch P o (s.read M) = .error e → hbranch P o s M = .error e) ∧
    ∀ m, branch P o (s.read M) = .ok m → ∃ f M', hbranch P o s M = .ok (m, f, M') ∧ M'.cells f = m.f ∧ M'.cells s.t = m.t ∧ (∀ q < M.next, q ≠ s.f → q ≠ s.t → M'.cells q = M.cells q) ∧
      (f = s.f ∧ M'.next = M.next ∨ o.hardness.isSome = true ∧ f = M.next ∧ M'.next = M.next + 1) := by
  unfold branch hbranch
  split_ifs with hc
  · refine ⟨fun e h => (by cases h), fun m h => ?_⟩
    injection h with h
    subst h
    refine ⟨_, _, rfl, write_self .., ?_, fun q _ h1 h2 => ?_, .inl ⟨rfl, rfl⟩⟩
    · rw [write_other _ _ hs.ft.symm, write_self]
    · rw [write_other _ _ h1, write_other _ _ h2]
  · refine ⟨fun e h => by rw [h], fun m h => ?_⟩
    rw [h]
    refine ⟨_, _, rfl, alloc_self .., ?_, fun q hq _ _ => alloc_other _ _ hq.ne, .inr ⟨?_, rfl, rfl⟩⟩
    · rw [mixBranch_t _ _ _ _ h]
      exact alloc_other _ _ hs.t.ne
    · by_contra h0
      exact hc (by simp [doCG, h0])

lemma hrescale_ok (P : Problem ι K) (o : Options ι K) (m : Mid ι K) (f : ℕ) (M : Mem ι K) :
    (hrescale P o m f M).2.cells (hrescale P o m f M).1 = rescale P o (clip m) ∧ (∀ q < M.next, q ≠ f → (hrescale P o m f M).2.cells q = M.cells q) ∧
    ((hrescale P o m f M).1 = f ∧ (hrescale P o m f M).2.next = M.next ∨
      o.externalForce ≠ none ∧ sumOver P.comp (clip m) = 0 ∧ (hrescale P o m f M).1 = M.next ∧ (hrescale P o m f M).2.next = M.next + 1) := by
  unfold hrescale
  cases hF : o.externalForce with
  | none =>
    refine ⟨?_, fun q _ h => write_other _ _ h, .inl ⟨rfl, rfl⟩⟩
    dsimp only
    rw [write_self]
    unfold rescale
    rw [hF]
  | some F =>
    simp only [write_self]
    split_ifs with h0
    · refine ⟨write_self .., fun q _ h => ?_, .inl ⟨rfl, rfl⟩⟩
      rw [write_other _ _ h, write_other _ _ h]
    · have h0 : sumOver P.comp (clip m) = 0 := neg_eq_zero.1 (not_not.1 h0)
      refine ⟨alloc_self .., fun q hq h => ?_, .inr ⟨by simp, h0, rfl, rfl⟩⟩
      rw [alloc_other _ _ (by simpa using hq.ne), write_other _ _ h]

lemma hforce_ok (P : Problem ι K) (o : Options ι K) (m : Mid ι K) (f : ℕ) (M : Mem ι K) (hf : f < M.next) :
    ∃ f' u M', hforce P o m f M = (f', u, M') ∧ M'.cells f' = stepForce P o m ∧ M'.cells u = P.disp (stepForce P o m) ∧ (∀ q < M.next, q ≠ f → M'.cells q = M.cells q) ∧
      M.next ≤ u ∧ f' < u ∧ u < M'.next ∧
      (f' = f ∨ o.externalForce ≠ none ∧ sumOver P.comp (clip m) = 0 ∧ f' = M.next) := by
  obtain ⟨h1, h2, h3⟩ := hrescale_ok P o m f M
  set f1 := (hrescale P o m f M).1 with ef
  set M1 := (hrescale P o m f M).2 with eM
  have hf1 : f1 < M1.next ∧ M.next ≤ M1.next := by
    rcases h3 with ⟨h, h'⟩ | ⟨_, _, h, h'⟩ <;> rw [h, h'] <;> omega
  -- truncation
  obtain ⟨M2, e2, c2, k2, n2⟩ : ∃ M2, (if o.hardness.isSome then M1.write f1 (truncate o m (M1.cells f1)) else M1) = M2 ∧ M2.cells f1 = truncate o m (rescale P o (clip m)) ∧
      (∀ q, q ≠ f1 → M2.cells q = M1.cells q) ∧ M2.next = M1.next := by
    refine ⟨_, rfl, ?_, ?_, ?_⟩
    · split_ifs with hh
      · rw [write_self, h1]
      · rw [h1]
        funext i
        simp [truncate, flowing, hh]
    · intro q hq
      split_ifs
      · exact write_other _ _ hq
      · rfl
    · split_ifs <;> rfl
  obtain ⟨M3, e3, c3, k3, n3⟩ : ∃ M3, (if m.status ≠ .mix ∧ 0 < count (newContact P o m) then M2.write f1 (addContact m (newContact P o m) (M2.cells f1)) else M2) = M3 ∧ M3.cells f1 = stepForce P o m ∧
      (∀ q, q ≠ f1 → M3.cells q = M2.cells q) ∧ M3.next = M2.next := by
    refine ⟨_, rfl, ?_, ?_, ?_⟩
    · split_ifs with hh
      · rw [write_self, c2]
        rfl
      · rw [c2]
        funext i
        unfold stepForce addContact
        rw [if_neg]
        rintro ⟨g1, g2⟩
        exact hh ⟨g1, Finset.card_pos.2 ⟨i, by simp [g2]⟩⟩
    · intro q hq
      split_ifs
      · exact write_other _ _ hq
      · rfl
    · split_ifs <;> rfl
  refine ⟨f1, M3.next, (M3.alloc (P.disp (M3.cells f1))).2, ?_, ?_, ?_, ?_, ?_, ?_, ?_, ?_⟩
  · unfold hforce
    simp only [← ef, ← eM]
    rw [e2, e3]
    rfl
  · rw [alloc_other _ _ (by omega), c3]
  · rw [alloc_self, c3]
  · intro q hq hqf
    have hq1 : q ≠ f1 := by
      rcases h3 with ⟨h, _⟩ | ⟨_, _, h, _⟩
      · rw [h]; exact hqf
      · rw [h]; exact hq.ne
    rw [alloc_other _ _ (by omega), k3 q hq1, k2 q hq1, h2 q hq hqf]
  · omega
  · omega
  · simp
  · rcases h3 with ⟨h, _⟩ | ⟨g, g', h, _⟩
    · exact .inl h
    · exact .inr ⟨g, g', h⟩

/-- One pass does to the contents what `step` does. -/
lemma hstep_ok (P : Problem ι K) (o : Options ι K) (pentol : K) (n : ℕ) (s : HState ι K) (M : Mem ι K) (hn : n ≤ M.next) (hs : Own n s M) :
    (∀ e, step P o pentol (s.read M) = .error e → hstep P o pentol s M = .error e) ∧
    ∀ w, step P o pentol (s.read M) = .ok w → ∃ s' M', hstep P o pentol s M = .ok (w, s', M') ∧ s'.read M' = w.next ∧ Own n s' M' ∧ M.next ≤ M'.next ∧ (∀ q < n, M'.cells q = M.cells q) ∧
      (o.hardness.isSome = false → o.externalForce = none → s'.f = s.f) ∧ M.next ≤ s'.u := by
  obtain ⟨he, hk⟩ := hbranch_ok P o n s M hs
  unfold step hstep
  cases hb : branch P o (s.read M) with
  | error e =>
    rw [he e hb]
    exact ⟨fun _ h => (by injection h with h; rw [h]), fun w h => (by cases h)⟩
  | ok m =>
    obtain ⟨f, M1, h1, c1, c2, c3, c4⟩ := hk m hb
    rw [h1]
    cases ht : o.hardness.truth with
    | error e => exact ⟨fun _ h => (by injection h with h; rw [h]), fun w h => (by cases h)⟩
    | ok hard =>
      refine ⟨fun e h => (by cases h), fun w h => ?_⟩
      injection h with h
      subst h
      have hf1 : f < M1.next ∧ M.next ≤ M1.next ∧ n ≤ f ∧ f ≠ s.t := by
        have := hs.f; have := hs.t; have := hs.nf; have := hs.ft
        rcases c4 with ⟨h, h'⟩ | ⟨_, h, h'⟩ <;> rw [h, h'] <;> omega
      obtain ⟨f', u, M2, h2, d1, d2, d3, d4, d5, d6, d7⟩ := hforce_ok P o m f M1 hf1.1
      simp only [h2]
      have g1 := hs.t; have g2 := hs.nt; have g3 := hs.nf; have g4 := hs.nu
      have gt : M2.cells s.t = m.t := by rw [d3 _ (by omega) (Ne.symm hf1.2.2.2), c2]
      refine ⟨_, _, rfl, ?_, ⟨?_, ?_, ?_, ?_, ?_, ?_, ?_, ?_, ?_⟩, by omega, fun q hq => ?_, fun g5 g6 => ?_, ?_⟩
      · unfold HState.read
        simp only [d1, d2, gt]
        rfl
      · show n ≤ f'
        rcases d7 with h | ⟨_, _, h⟩ <;> omega
      · show n ≤ u
        omega
      · exact g2
      · show f' < M2.next
        omega
      · exact d6
      · show s.t < M2.next
        omega
      · exact d5.ne
      · show f' ≠ s.t
        rcases d7 with h | ⟨_, _, h⟩
        · rw [h]; exact hf1.2.2.2
        · omega
      · show u ≠ s.t
        omega
      · rw [d3 q (by omega) (by omega), c3 q (by omega) (by omega) (by omega)]
      · show f' = s.f
        rcases d7 with h | ⟨h, _⟩
        · rcases c4 with ⟨h', _⟩ | ⟨h', _⟩
          · rw [h, h']
          · rw [g5] at h'; cases h'
        · exact absurd g6 h
      · show M.next ≤ u
        omega

lemma initState_read (P : Problem ι K) (o : Options ι K) (a : Passed) (M : Mem ι K) (ha : Exist a M) :
    (hinit P o a M).1.read (hinit P o a M).2 = initState P (a.read M o) ∧ Own M.next (hinit P o a M).1 (hinit P o a M).2 ∧ (∀ q < M.next, (hinit P o a M).2.cells q = M.cells q) ∧
      M.next ≤ (hinit P o a M).2.next := by
  obtain ⟨ad, af⟩ := a
  cases af with
  | none =>
    refine ⟨?_, ?_, ?_, ?_⟩
    · simp [hinit, HState.read, initState, Passed.read, Mem.alloc, Mem.write]
      intro h
      omega
    · constructor <;> simp [hinit, Mem.alloc, Mem.write] <;> omega
    · intro q hq
      have : q ≠ M.next ∧ q ≠ M.next + 1 ∧ q ≠ M.next + 1 + 1 := by omega
      simp [hinit, Mem.alloc, Mem.write, this]
    · simp [hinit, Mem.alloc, Mem.write]; omega
  | some r =>
    have hr : r < M.next := ha.2 r rfl
    refine ⟨?_, ?_, ?_, ?_⟩
    · simp [hinit, HState.read, initState, Passed.read, Mem.alloc, Mem.write, hr.ne]
    · constructor <;> simp [hinit, Mem.alloc, Mem.write] <;> omega
    · intro q hq
      have : q ≠ M.next ∧ q ≠ M.next + 1 ∧ q ≠ M.next + 1 + 1 ∧ q ≠ M.next + 1 + 1 + 1 := by omega
      simp [hinit, Mem.alloc, Mem.write, this]
    · simp [hinit, Mem.alloc, Mem.write]; omega

/-- The array stays the same object. -/
def Elastic (o : Options ι K) : Prop := o.hardness.isSome = false ∧ o.externalForce = none

omit [Fintype ι] [Field K] [LinearOrder K] in
lemma own_mono {n : ℕ} {s : HState ι K} {M M' : Mem ι K} (h : Own n s M) (hn : M.next ≤ M'.next) : Own n s M' :=
  ⟨h.nf, h.nu, h.nt, h.f.trans_le hn, h.u.trans_le hn, h.t.trans_le hn, h.fu, h.ft, h.ut⟩

omit [Fintype ι] [Field K] [LinearOrder K] in
lemma read_eq {s : HState ι K} {M M' : Mem ι K} {n : ℕ} (h : Own n s M) (hc : ∀ q < M.next, M'.cells q = M.cells q) : s.read M' = s.read M := by
  unfold HState.read
  rw [hc _ h.f, hc _ h.u, hc _ h.t]

lemma hresult_ok (P : Problem ι K) (o : Options ι K) (n it : ℕ) (b : Bool) (w : StepOut ι K) (s : HState ι K) (calls : List (Call ι K)) (M : Mem ι K) (hn : n ≤ M.next) (hs : Own n s M) (hw : w.next = s.read M)
    (hc : ∀ c ∈ calls, n ≤ c.arr ∧ c.arr < M.next ∧ c.arr ≠ s.u ∧ (Elastic o → c.arr = s.f)) :
    let H := hresult P o it b w s calls M
    H.res = mkResult P o it b w ∧ H.calls = calls ∧ (∀ q < n, H.mem.cells q = M.cells q) ∧ n ≤ H.x ∧ n ≤ H.jac ∧ H.x ≠ H.jac ∧ H.mem.cells H.x = H.res.x ∧ H.mem.cells H.jac = H.res.jac ∧
      (∀ c ∈ H.calls, n ≤ c.arr ∧ c.arr ≠ H.x ∧ c.arr ≠ H.jac) ∧ (Elastic o → ∀ c ∈ H.calls, (∀ c' ∈ H.calls, c'.arr = c.arr) ∧ ∀ i, H.res.jac i = if P.slice i then -(H.mem.cells c.arr i) else 0) := by
  have e : ({ w with next := s.read M } : StepOut ι K) = w := by rw [← hw]
  have hu := hs.u
  have hf := hs.f
  simp only [hresult, e, alloc_fst]
  refine ⟨trivial, trivial, fun q hq => alloc_other _ _ (by omega), hs.nu, hn, hu.ne, ?_, alloc_self .., fun c h => ⟨(hc c h).1, (hc c h).2.2.1, (hc c h).2.1.ne⟩, fun hE c h => ⟨fun c' h' => ?_, fun i => ?_⟩⟩
  · rw [alloc_other _ _ hu.ne]
    simp only [mkResult, hw]
    rfl
  · rw [(hc c h).2.2.2 hE, (hc c' h').2.2.2 hE]
  · rw [alloc_other _ _ (hc c h).2.1.ne, (hc c h).2.2.2 hE]
    simp only [mkResult, hw]
    rfl

/-- The loop with a callback that only reads. -/
lemma hloop_ok (cb : Callback ι K) (hcb : OnlyReads cb) (P : Problem ι K) (o : Options ι K) (p : K) (n : ℕ) : ∀ (fuel it : ℕ) (s : HState ι K) (calls : List (Call ι K)) (last : Option (StepOut ι K)) (M : Mem ι K),
    n ≤ M.next → Own n s M → (∀ w ∈ last, w.next = s.read M) → (∀ c ∈ calls, n ≤ c.arr ∧ c.arr < M.next ∧ c.arr ≠ s.u ∧ (Elastic o → c.arr = s.f)) →
    (∀ e, loop P o p fuel it (s.read M) (calls.map fun c => (c.it, c.seen)) last = .error e → hloop cb P o p fuel it s calls last M = .error e) ∧
    ∀ R l, loop P o p fuel it (s.read M) (calls.map fun c => (c.it, c.seen)) last = .ok (R, l) →
      ∃ H, hloop cb P o p fuel it s calls last M = .ok H ∧ H.res = R ∧ (H.calls.map fun c => (c.it, c.seen)) = l ∧ (∀ q < n, H.mem.cells q = M.cells q) ∧ n ≤ H.x ∧ n ≤ H.jac ∧ H.x ≠ H.jac ∧
        H.mem.cells H.x = H.res.x ∧ H.mem.cells H.jac = H.res.jac ∧ (∀ c ∈ H.calls, n ≤ c.arr ∧ c.arr ≠ H.x ∧ c.arr ≠ H.jac) ∧
        (Elastic o → ∀ c ∈ H.calls, (∀ c' ∈ H.calls, c'.arr = c.arr) ∧ ∀ i, H.res.jac i = if P.slice i then -(H.mem.cells c.arr i) else 0) := by
  intro fuel
  induction fuel with
  | zero =>
    intro it s calls last M hn hs hl hc
    cases last with
    | none =>
      unfold loop hloop
      exact ⟨fun _ h => (by injection h with h; rw [h]), fun R l h => (by cases h)⟩
    | some w =>
      unfold loop hloop
      refine ⟨fun _ h => (by cases h), fun R l h => ?_⟩
      injection h with h
      injection h with h1 h2
      obtain ⟨g1, g2, g3⟩ := hresult_ok P o n it false w s calls M hn hs (hl w rfl) hc
      exact ⟨_, rfl, g1.trans h1, by rw [g2, h2], g3⟩
  | succ fuel ih =>
    intro it s calls last M hn hs hl hc
    obtain ⟨he, hk⟩ := hstep_ok P o p n s M hn hs
    unfold loop hloop
    cases hst : step P o p (s.read M) with
    | error e =>
      rw [he e hst]
      exact ⟨fun _ h => (by injection h with h; rw [h]), fun R l h => (by cases h)⟩
    | ok w =>
      obtain ⟨s', M', h1, h2, h3, h4, h5, h6, h7⟩ := hk w hst
      rw [h1]
      dsimp only
      have hs'f := h3.f
      have hc' : ∀ c ∈ calls, n ≤ c.arr ∧ c.arr < M'.next ∧ c.arr ≠ s'.u ∧ (Elastic o → c.arr = s'.f) := by
        intro c h
        obtain ⟨a1, a2, a3, a4⟩ := hc c h
        exact ⟨a1, by omega, by omega, fun hE => (a4 hE).trans (h6 hE.1 hE.2).symm⟩
      split_ifs with hcv
      · refine ⟨fun _ h => (by cases h), fun R l h => ?_⟩
        injection h with h
        injection h with e1 e2
        obtain ⟨g1, g2, g3, g4⟩ := hresult_ok P o n (it + 1) true w s' calls M' (hn.trans h4) h3 h2.symm hc'
        exact ⟨_, rfl, g1.trans e1, by rw [g2, e2], fun q hq => (g3 q hq).trans (h5 q hq), g4⟩
      · obtain ⟨r1, r2⟩ := hcb (it + 1) s'.f M'
        have e := read_eq h3 r1
        obtain ⟨i1, i2⟩ := ih (it + 1) s' (calls ++ [⟨it + 1, s'.f, M'.cells s'.f⟩]) (some w) (cb (it + 1) s'.f M') (by omega) (own_mono h3 r2)
          (by rintro w' ⟨⟩; rw [e, h2]) (by
            intro c h
            rcases List.mem_append.1 h with h | h
            · obtain ⟨a1, a2, a3⟩ := hc' c h
              exact ⟨a1, by omega, a3⟩
            · rw [List.mem_singleton.1 h]
              exact ⟨h3.nf, by dsimp only; omega, h3.fu, fun _ => rfl⟩)
        have e3 : M'.cells s'.f = w.next.f := by rw [← h2]; rfl
        rw [e, h2, List.map_append, List.map_singleton, e3] at i1 i2
        rw [e3]
        refine ⟨i1, fun R l h => ?_⟩
        obtain ⟨H, g1, g2, g3, g4, g5⟩ := i2 R l h
        exact ⟨H, g1, g2, g3, fun q hq => by rw [g4 q hq, r1 q (by omega), h5 q hq], g5⟩

/-- **C202.** With a callback that only reads (or copies), the solver raises the exceptions of the model without memory, or returns its result, and the callback sees in every call what is in its list. -/
theorem C202_contents (cb : Callback ι K) (hcb : OnlyReads cb) (P : Problem ι K) (o : Options ι K) (a : Passed) (M : Mem ι K) (ha : Exist a M) :
    (∀ e, solveCb P (a.read M o) = .error e → hsolve cb P o a M = .error e) ∧
    ∀ R l, solveCb P (a.read M o) = .ok (R, l) → ∃ H, hsolve cb P o a M = .ok H ∧ H.res = R ∧ (H.calls.map fun c => (c.it, c.seen)) = l ∧ H.mem.cells H.x = R.x ∧ H.mem.cells H.jac = R.jac := by
  obtain ⟨b1, b2, b3, b4⟩ := initState_read P o a M ha
  unfold solveCb hsolve
  cases pentolOf P (a.read M o) with
  | error e => exact ⟨fun _ h => (by injection h with h; rw [h]), fun R l h => (by cases h)⟩
  | ok p =>
    obtain ⟨i1, i2⟩ := hloop_ok cb hcb P (a.read M o) p M.next o.maxiter 0 (hinit P o a M).1 [] none (hinit P o a M).2 b4 b2 (fun w h => by cases h) (fun c h => by cases h)
    rw [b1] at i1 i2
    refine ⟨i1, fun R l h => ?_⟩
    obtain ⟨H, g1, g2, g3, _, _, _, _, g4, g5, _⟩ := i2 R l h
    exact ⟨H, g1, g2, g3, by rw [g4, g2], by rw [g5, g2]⟩

/-- **C202.** Then the arrays of the result are new, different from one another and from all arrays the callback has been given: whoever keeps one of those can do with it what he likes. -/
theorem C202_result_new (cb : Callback ι K) (hcb : OnlyReads cb) (P : Problem ι K) (o : Options ι K) (a : Passed) (M : Mem ι K) (ha : Exist a M) (H : HResult ι K) (h : hsolve cb P o a M = .ok H) :
    M.next ≤ H.x ∧ M.next ≤ H.jac ∧ H.x ≠ H.jac ∧ ∀ c ∈ H.calls, c.arr ≠ H.x ∧ c.arr ≠ H.jac := by
  obtain ⟨b1, b2, b3, b4⟩ := initState_read P o a M ha
  unfold hsolve at h
  cases hp : pentolOf P (a.read M o) with
  | error e => rw [hp] at h; cases h
  | ok p =>
    rw [hp] at h
    obtain ⟨i1, i2⟩ := hloop_ok cb hcb P (a.read M o) p M.next o.maxiter 0 (hinit P o a M).1 [] none (hinit P o a M).2 b4 b2 (fun w h => by cases h) (fun c h => by cases h)
    cases hl : loop P (a.read M o) p o.maxiter 0 ((hinit P o a M).1.read (hinit P o a M).2) (([] : List (Call ι K)).map fun c => (c.it, c.seen)) none with
    | error e => cases (i1 e hl).symm.trans h
    | ok R =>
      obtain ⟨H', g1, _, _, _, g2, g3, g4, _, _, g5, _⟩ := i2 R.1 R.2 hl
      cases g1.symm.trans h
      exact ⟨g2, g3, g4, fun c hc => (g5 c hc).2⟩

/-- **C203** (refuted). The arrays given to the callback do not keep what they held: without hardness and at a prescribed offset every call is given the same array, and when the solver returns, all of them hold
the final forces. -/
theorem C203_kept_partial (cb : Callback ι K) (hcb : OnlyReads cb) (P : Problem ι K) (o : Options ι K) (a : Passed) (M : Mem ι K) (ha : Exist a M) (hE : o.hardness.isSome = false) (hF : o.externalForce = none)
    (H : HResult ι K) (h : hsolve cb P o a M = .ok H) :
    ∀ c ∈ H.calls, (∀ c' ∈ H.calls, c'.arr = c.arr) ∧ ∀ i, H.res.jac i = if P.slice i then -(H.mem.cells c.arr i) else 0 := by
  obtain ⟨b1, b2, b3, b4⟩ := initState_read P o a M ha
  unfold hsolve at h
  cases hp : pentolOf P (a.read M o) with
  | error e => rw [hp] at h; cases h
  | ok p =>
    rw [hp] at h
    obtain ⟨i1, i2⟩ := hloop_ok cb hcb P (a.read M o) p M.next o.maxiter 0 (hinit P o a M).1 [] none (hinit P o a M).2 b4 b2 (fun w h => by cases h) (fun c h => by cases h)
    cases hl : loop P (a.read M o) p o.maxiter 0 ((hinit P o a M).1.read (hinit P o a M).2) (([] : List (Call ι K)).map fun c => (c.it, c.seen)) none with
    | error e => cases (i1 e hl).symm.trans h
    | ok R =>
      obtain ⟨H', g1, _, _, _, _, _, _, _, _, _, g5⟩ := i2 R.1 R.2 hl
      cases g1.symm.trans h
      exact g5 ⟨hE, hF⟩

/-- The loop writes into no array that existed before. -/
lemma hloop_old (P : Problem ι K) (o : Options ι K) (p : K) (n : ℕ) (cb : Callback ι K) (hcb : Spares n cb) : ∀ (fuel it : ℕ) (s : HState ι K) (calls : List (Call ι K)) (last : Option (StepOut ι K)) (M : Mem ι K),
    n ≤ M.next → Own n s M → ∀ H, hloop cb P o p fuel it s calls last M = .ok H → ∀ q < n, H.mem.cells q = M.cells q := by
  intro fuel
  induction fuel with
  | zero =>
    intro it s calls last M hn hs H h q hq
    cases last with
    | none => unfold hloop at h; cases h
    | some w =>
      unfold hloop at h
      injection h with h
      rw [← h]
      exact alloc_other _ _ (by omega)
  | succ fuel ih =>
    intro it s calls last M hn hs H h q hq
    obtain ⟨he, hk⟩ := hstep_ok P o p n s M hn hs
    unfold hloop at h
    cases hst : step P o p (s.read M) with
    | error e => rw [he e hst] at h; cases h
    | ok w =>
      obtain ⟨s', M', h1, h2, h3, h4, h5, -, -⟩ := hk w hst
      rw [h1] at h
      dsimp only at h
      split_ifs at h with hcv
      · injection h with h
        rw [← h, ← h5 q hq]
        exact alloc_other _ _ (by omega)
      · obtain ⟨r1, r2⟩ := hcb (it + 1) s'.f M'
        rw [ih _ _ _ _ _ (by omega) (own_mono h3 r2) H h q hq, r1 q hq, h5 q hq]

/-- **C202.** The solver writes into no array that existed before the call -- in particular not into `initial_displacements` and `initial_forces` --, whatever the callback does to the array it is given. -/
theorem C202_arguments (P : Problem ι K) (o : Options ι K) (a : Passed) (M : Mem ι K) (ha : Exist a M) (cb : Callback ι K) (hcb : Spares M.next cb) (H : HResult ι K) (h : hsolve cb P o a M = .ok H) :
    (∀ q < M.next, H.mem.cells q = M.cells q) ∧ (∀ r ∈ a.displacements, H.mem.cells r = M.cells r) ∧ ∀ r ∈ a.forces, H.mem.cells r = M.cells r := by
  have key : ∀ q < M.next, H.mem.cells q = M.cells q := by
    obtain ⟨b1, b2, b3, b4⟩ := initState_read P o a M ha
    unfold hsolve at h
    cases hp : pentolOf P (a.read M o) with
    | error e => rw [hp] at h; cases h
    | ok p =>
      rw [hp] at h
      intro q hq
      rw [hloop_old P (a.read M o) p M.next cb hcb _ _ _ _ _ _ b4 b2 H h q hq, b3 q hq]
  exact ⟨key, fun r hr => key r (ha.1 r hr), fun r hr => key r (ha.2 r hr)⟩

/-- **C203** (refuted). What the callback writes into its array goes into the solver's forces: if the only iteration allowed does not converge and the callback overwrites the array, the solver returns the overwritten
values as forces, together with the displacements of the forces that it had computed. -/
theorem C203_written_partial (P : Problem ι K) (o : Options ι K) (a : Passed) (M : Mem ι K) (ha : Exist a M) (v : ι → K) (hm : o.maxiter = 1) (R : Result ι K) (l : List (ℕ × (ι → K)))
    (hs : solveCb P (a.read M o) = .ok (R, l)) (hR : R.success = false) :
    ∃ H, hsolve (overwrite v) P o a M = .ok H ∧ H.res.x = R.x ∧ (∀ i, H.res.jac i = if P.slice i then -(v i) else 0) ∧ ∀ i, P.slice i = true → (H.res.jac i = R.jac i ↔ v i = -(R.jac i)) := by
  obtain ⟨b1, b2, b3, b4⟩ := initState_read P o a M ha
  unfold solveCb at hs
  unfold hsolve
  cases hp : pentolOf P (a.read M o) with
  | error e => rw [hp] at hs; cases hs
  | ok p =>
    rw [hp] at hs
    dsimp only at hs ⊢
    have hm' : (a.read M o).maxiter = 1 := hm
    rw [hm'] at hs
    rw [hm]
    obtain ⟨he, hk⟩ := hstep_ok P (a.read M o) p M.next (hinit P o a M).1 (hinit P o a M).2 b4 b2
    rw [b1] at he hk
    unfold loop at hs
    unfold hloop
    cases hst : step P (a.read M o) p (initState P (a.read M o)) with
    | error e => rw [hst] at hs; cases hs
    | ok w =>
      obtain ⟨s', M', h1, h2, h3, h4, h5, -, -⟩ := hk w hst
      rw [hst] at hs
      rw [h1]
      dsimp only at hs ⊢
      split_ifs at hs ⊢ with hcv
      · injection hs with hs
        injection hs with hs _
        rw [← hs] at hR
        cases hR
      · unfold loop at hs
        injection hs with hs
        injection hs with hs _
        unfold hloop
        refine ⟨_, rfl, ?_, fun i => ?_, fun i hi => ?_⟩
        · rw [← hs]
          simp only [hresult, mkResult, HState.read, overwrite]
          rw [write_other _ _ h3.fu.symm, ← h2]
          rfl
        · simp [hresult, mkResult, HState.read, overwrite]
        · rw [← hs]
          simp [hresult, mkResult, HState.read, overwrite, hi]

end
/-! ## An example: the array kept from the first call does not hold what it held then -/

/-- Forces are passed in array `0`. -/
def demoMem : Mem (Fin 3) ℚ := ⟨fun _ => ![-2, -3, -1], 1⟩

example : OnlyReads (copies : Callback (Fin 3) ℚ) ∧ Exist ⟨none, some 0⟩ demoMem ∧
    ∃ H, hsolve copies (demo ![5, 8, 0]) { demoOpt with maxiter := 2 } ⟨none, some 0⟩ demoMem = .ok H ∧ ∃ c ∈ H.calls, c.seen 0 ≠ H.mem.cells c.arr 0 := by
  refine ⟨fun it r M => ⟨fun q hq => alloc_other _ _ hq.ne, by simp [copies]⟩, ⟨fun r h => (by cases h), fun r h => (by cases h; decide)⟩, ?_⟩
  have h : okAnd (hsolve copies (demo ![5, 8, 0]) { demoOpt with maxiter := 2 } ⟨none, some 0⟩ demoMem) (fun H => H.calls.any fun c => decide (c.seen 0 ≠ H.mem.cells c.arr 0)) = true := by decide +kernel
  obtain ⟨H, h1, h2⟩ := okAnd_iff.1 h
  obtain ⟨c, h3, h4⟩ := List.any_eq_true.1 h2
  exact ⟨H, h1, c, h3, of_decide_eq_true h4⟩

/-- The hypotheses of `C203_written_partial`. -/
example : ∃ R l, solveCb (demo ![5, 8, 0]) ((⟨none, some 0⟩ : Passed).read demoMem { demoOpt with maxiter := 1 }) = .ok (R, l) ∧ R.success = false ∧ R.jac 0 ≠ 0 := by
  have h : okAnd (solveCb (demo ![5, 8, 0]) ((⟨none, some 0⟩ : Passed).read demoMem { demoOpt with maxiter := 1 })) (fun r => !r.1.success && decide (r.1.jac 0 ≠ 0)) = true := by decide +kernel
  obtain ⟨⟨R, l⟩, h1, h2⟩ := okAnd_iff.1 h
  simp at h2
  exact ⟨R, l, h1, h2.1, h2.2⟩

end CM.CCG
