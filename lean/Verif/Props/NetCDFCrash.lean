import Verif.Spec.NetCDFCrash
import Verif.Props.NetCDF3
/-!
# C215, C216: frames after a crash
-/
namespace CM.NetCDF

/-- The calls of a history, without the synchronisations. -/
def calls : List DOp → List Op
  | [] => []
  | .sync :: l => calls l
  | .call op :: l => op :: calls l

lemma dstep_file (rnd : ℝ → ℝ) (T : Tracked) (op : Op) : (dstep rnd T (.call op)).file = (step rnd T.file op).2 := by
  simp only [dstep]
  cases definedBy T.file op <;> rfl

lemma drun_file (rnd : ℝ → ℝ) (l : List DOp) : ∀ T, (drun rnd T l).file = run rnd T.file (calls l) := by
  induction l with
  | nil => intro T; rfl
  | cons o l ih =>
    intro T
    have := ih (dstep rnd T o)
    simp only [drun, List.foldl_cons] at this ⊢
    rw [this]
    cases o with
    | sync => rfl
    | call op => rw [dstep_file]; rfl

lemma drun_append (rnd : ℝ → ℝ) (T : Tracked) (a b : List DOp) : drun rnd T (a ++ b) = drun rnd (drun rnd T a) b := List.foldl_append

/-- Everything that may come to disk from now on continues `K`; the current state is the last one. -/
def After (j : ℕ) (m : String) (K : File) (T : Tracked) : Prop := (∀ C ∈ T.states, Ext K C ∧ Same j m K C) ∧ Ext K T.file ∧ Same j m K T.file

lemma definedBy_ext {C D : File} {op : Op} (h : definedBy C op = some D) (j : ℕ) (m : String) : Ext C D ∧ Same j m C D := by
  cases op with
  | shape s ndof =>
    simp only [definedBy] at h
    split_ifs at h
    cases h
    exact setShape_ext C s ndof j m
  | rigid hx hy hh ndof =>
    simp only [definedBy] at h
    split_ifs at h
    cases h
    exact setShape_ext C [hx, hy] ndof j m
  | _ => cases h

lemma after_run (rnd : ℝ → ℝ) (j : ℕ) (m : String) (hm : m ≠ "h") (K : File) (l : List DOp) : ∀ T, After j m K T → Spared rnd j m T l → After j m K (drun rnd T l) := by
  induction l with
  | nil => intro T h _; exact h
  | cons o l ih =>
    intro T h hs
    simp only [drun, List.foldl_cons]
    cases o with
    | sync =>
      refine ih _ ⟨?_, h.2⟩ hs
      intro C hC
      have : C = T.file := by simpa [dstep, Tracked.states] using hC
      rw [this]
      exact h.2
    | call op =>
      obtain ⟨a1, a2⟩ := step_ext rnd T.file op j m
      have hn : Ext K (step rnd T.file op).2 ∧ Same j m K (step rnd T.file op).2 := ⟨h.2.1.trans a1, h.2.2.trans h.2.1 (a2 hm hs.1)⟩
      refine ih _ ⟨?_, by rw [dstep_file]; exact hn⟩ hs.2
      intro C hC
      simp only [dstep, Tracked.states] at hC
      cases hd : definedBy T.file op with
      | some D =>
        rw [hd] at hC
        obtain ⟨b1, b2⟩ := definedBy_ext hd j m
        rcases List.mem_cons.1 hC with rfl | hC
        · exact ⟨h.2.1.trans b1, h.2.2.trans h.2.1 b2⟩
        · rw [List.mem_singleton.1 hC]; exact hn
      | none =>
        rw [hd] at hC
        rcases List.mem_cons.1 hC with rfl | hC
        · exact h.1 _ (by simp [Tracked.states])
        · rcases List.mem_append.1 hC with hC | hC
          · exact h.1 _ (by simp [Tracked.states, hC])
          · rw [List.mem_singleton.1 hC]; exact hn

/-- **C215.**  Whatever can be read of a frame when the container is synchronised is read from the file after a crash, whenever it happens and whatever was done in the meantime, as
long as that frame of that variable is not written again. -/
theorem C215_synced (rnd : ℝ → ℝ) (d : Bool) (f : ℕ) (before after : List DOp) (j : ℕ) (n : String) (hn : PlainName n) (dims : List ℕ) (P : List ℕ → ℝ → Prop)
    (hr : (drun rnd (fresh d f) before).file.Reads j n dims P) (hu : Spared rnd j n (drun rnd (fresh d f) (before ++ [.sync])) after)
    {D : File} (hD : OnDisk (drun rnd (fresh d f) (before ++ .sync :: after)) D) {e : Bool} {fr : ℤ} {D' : File} (ho : reopen D e fr = .ok D') : D'.Reads j n dims P := by
  have hcat : before ++ DOp.sync :: after = (before ++ [.sync]) ++ after := by simp
  rw [hcat, drun_append] at hD
  have hfile := drun_file rnd before (fresh d f)
  have hs : drun rnd (fresh d f) (before ++ [.sync]) = ⟨(drun rnd (fresh d f) before).file, (drun rnd (fresh d f) before).file, []⟩ := by
    rw [drun_append]; rfl
  rw [hs] at hu hD
  set K := (drun rnd (fresh d f) before).file with hK
  have hA := after_run rnd j n hn.2.2 K after ⟨K, K, []⟩ ⟨by
    intro C hC
    have hC' : C = K := by simpa [Tracked.states] using hC
    rw [hC']
    exact ⟨Ext.refl K, Same.refl j n K⟩, Ext.refl K, Same.refl j n K⟩ hu
  generalize drun rnd ⟨K, K, []⟩ after = T at hA hD
  obtain ⟨F, get, hF, hg, hP⟩ := hr
  have hFi : F.i = j := by
    rw [frame_number _ _ _ hF]
    unfold File.frameNumber
    rw [if_neg (by omega)]
  unfold frameGet at hg
  rw [if_neg hn.1, if_neg (by rw [hn.2.1]; simp), hFi] at hg
  cases hv : K.vars n with
  | none => simp [fetch, hv] at hg
  | some v =>
    have hvf : v.framed = true := by
      rw [hfile] at hv
      exact run_framed rnd d f _ n hn.2.2 v hv
    unfold fetch at hg
    rw [hv] at hg
    simp only [hvf, if_true, Int.toNat_natCast] at hg
    rw [if_neg (by omega)] at hg
    split_ifs at hg with hj
    injection hg with hg
    injection hg with hg1 hg2
    subst hg1 hg2
    obtain ⟨hfr, hall⟩ : D'.frames = D.frames ∧ D'.vars = D.vars := by
      unfold reopen at ho
      split at ho
      · split_ifs at ho
        all_goals (cases ho; exact ⟨rfl, rfl⟩)
      · cases ho
    obtain ⟨⟨x1, x2⟩⟩ := And.intro (hA.1 T.kept (by simp [Tracked.states])) trivial
    obtain ⟨v1, a1, a2, a3, a4⟩ := x1.vars n v hv
    obtain ⟨w, b1, ⟨b2, b3, b4⟩, b5⟩ := hD.old n v1 a1
    have := reads_of D' j n hn w (by rw [hall]; exact b1) (by rw [b3, a3, hvf]) (by
      rw [hfr]
      have := hD.frames.1
      have := x1.frames
      omega) P (by
        intro idx hidx
        rw [b4, a4] at hidx
        obtain ⟨C, hC, u, hu1, hu2⟩ := b5 j idx
        obtain ⟨u', c1, c2⟩ := (hA.1 C hC).2 v hv hvf
        rw [hu1] at c1
        injection c1 with c1
        subst c1
        rw [hu2, c2]
        exact hP idx hidx)
    rw [b4, a4] at this
    exact this

/-- **C215, values.**  A value whose write succeeded, followed by a synchronisation with other writes before and after it, is read back after a crash, up to the storage type of the
variable. -/
theorem C215_value (rnd : ℝ → ℝ) (d : Bool) (f : ℕ) (before middle after : List DOp) (i : ℤ) (n : String) (v : Value) (hn : PlainName n)
    (hok : (step rnd (drun rnd (fresh d f) before).file (.write i n v)).1 = .ok ())
    (hm : Spared rnd ((drun rnd (fresh d f) before).file.frameNumber i) n (drun rnd (fresh d f) (before ++ [.call (.write i n v)])) middle)
    (ha : Spared rnd ((drun rnd (fresh d f) before).file.frameNumber i) n (drun rnd (fresh d f) (before ++ .call (.write i n v) :: middle ++ [.sync])) after)
    {D : File} (hD : OnDisk (drun rnd (fresh d f) (before ++ .call (.write i n v) :: middle ++ .sync :: after)) D) {e : Bool} {fr : ℤ} {D' : File} (ho : reopen D e fr = .ok D') :
    ∃ k dims, v.Fits dims ∧ D'.Reads ((drun rnd (fresh d f) before).file.frameNumber i) n dims fun idx y => Keeps rnd k (v.reads idx) y := by
  have spared : ∀ (l : List DOp) (T : Tracked) (j : ℤ), Spared rnd j n T l → Untouched rnd j n T.file (calls l) := by
    intro l
    induction l with
    | nil => intro T j _; trivial
    | cons o l ih =>
      intro T j h
      cases o with
      | sync => exact ih (dstep rnd T .sync) j h
      | call op =>
        refine ⟨h.1, ?_⟩
        have := ih _ j h.2
        rwa [dstep_file] at this
  have cat : ∀ a b : List DOp, calls (a ++ b) = calls a ++ calls b := by
    intro a b
    induction a with
    | nil => rfl
    | cons o a ih => cases o <;> simp [calls, ih]
  have hb := drun_file rnd before (fresh d f)
  have hbase : (fresh d f).file = create d f := rfl
  rw [hbase] at hb
  have hm' := spared _ _ _ hm
  rw [drun_append] at hm'
  change Untouched rnd _ n (dstep rnd _ (.call (.write i n v))).file _ at hm'
  rw [dstep_file, hb] at hm'
  obtain ⟨k, dims, -, -, hf, hr⟩ := C74_last_write rnd d f (calls before) (calls middle) i n v hn (by rw [← hb]; exact hok) hm'
  refine ⟨k, dims, hf, ?_⟩
  rw [hb] at ha ⊢
  have hnn : ∃ j : ℕ, (run rnd (create d f) (calls before)).frameNumber i = j := by
    refine ⟨((run rnd (create d f) (calls before)).frameNumber i).toNat, ?_⟩
    obtain ⟨F, g, h1, h2, -⟩ := hr
    have h3 := frame_number _ _ _ h1
    have : ¬ F.i < 0 := by
      intro hneg
      unfold frameGet at h2
      rw [if_neg hn.1, if_neg (by rw [hn.2.1]; simp)] at h2
      unfold fetch at h2
      split at h2
      · cases h2
      · rw [if_pos hneg] at h2; cases h2
    rw [Int.toNat_of_nonneg]
    by_contra hneg
    push Not at hneg
    unfold frame at h1
    rw [if_pos hneg] at h1
    -- the write succeeded, so its frame number is not negative
    rw [hb] at hok
    simp only [step] at hok
    cases hF : frame (run rnd (create d f) (calls before)) i with
    | error e => rw [hF] at hok; cases hok
    | ok G =>
      rw [hF] at hok
      have hG := frame_number _ _ _ hF
      simp only [frameSet] at hok
      rw [if_neg hn.1, if_neg (by rw [hn.2.1]; simp)] at hok
      cases hc : createIfMissing (run rnd (create d f) (calls before)) n v none with
      | error e => rw [hc] at hok; cases hok
      | ok C' =>
        rw [hc] at hok
        simp only [assign] at hok
        rw [hG] at hok
        split at hok
        · cases hok
        · rw [if_pos hneg] at hok; cases hok
  obtain ⟨j, hj⟩ := hnn
  rw [hj] at ha hr ⊢
  have e1 : drun rnd (fresh d f) (before ++ DOp.call (.write i n v) :: middle ++ [.sync]) = drun rnd (fresh d f) ((before ++ .call (.write i n v) :: middle) ++ [.sync]) := rfl
  rw [e1] at ha
  refine C215_synced rnd d f (before ++ .call (.write i n v) :: middle) after j n hn dims _ ?_ ha hD ho
  rw [drun_file, cat]
  exact hr

/-- **C215, everything.**  A crash right after a synchronisation loses nothing: the reopened container has the same frames, all of which read the same, and the same rigid surface. -/
theorem C215_everything (rnd : ℝ → ℝ) (T : Tracked) {D : File} (hD : OnDisk (dstep rnd T .sync) D) {e : Bool} {fr : ℤ} {D' : File} (ho : reopen D e fr = .ok D') :
    (∀ i, 0 ≤ i → frame D' i = frame T.file i) ∧ D'.frames = T.file.frames ∧ (∀ F n, (∃ g, frameGet T.file F n = .ok g) → frameGet D' F n = frameGet T.file F n) ∧
      (∀ g, getRigid T.file = .ok g → getRigid D' = .ok g) := by
  obtain ⟨h1, -, h3, -, -⟩ := C119_reopen D D' e fr ho
  have hfr : D.frames = T.file.frames := le_antisymm hD.frames.2 hD.frames.1
  have hv : ∀ n v, T.file.vars n = some v → D.vars n = some v := by
    intro n v h
    obtain ⟨w, b1, ⟨b2, b3, b4⟩, b5⟩ := hD.old n v h
    rw [b1]
    congr 1
    have : w.data = v.data := by
      funext j idx
      obtain ⟨C, hC, u, hu, h'⟩ := b5 j idx
      have hC' : C = T.file := by simpa [dstep, Tracked.states] using hC
      rw [hC', h] at hu
      cases hu
      exact h'
    cases w; cases v
    simp only at b2 b3 b4 this
    subst b2 b3 b4 this
    rfl
  refine ⟨fun i hi => by unfold frame; rw [if_neg (by omega), if_neg (by omega)], h1.trans hfr, ?_, ?_⟩
  · rintro F n ⟨g, hg⟩
    rw [h3]
    unfold frameGet fetch at hg ⊢
    by_cases c1 : n = ""
    · rw [if_pos c1, if_pos c1]
    · rw [if_neg c1] at hg ⊢
      rw [if_neg c1]
      by_cases c2 : isPrivate n = true
      · rw [if_pos c2, if_pos c2]
      rw [if_neg c2] at hg ⊢
      rw [if_neg c2]
      cases hn : T.file.vars n with
      | none => rw [hn] at hg; cases hg
      | some v => rw [hv n v hn, hfr]
  · intro g hg
    obtain ⟨-, -, -, h4, -⟩ := C119_reopen D D' e fr ho
    rw [h4]
    unfold getRigid at hg ⊢
    cases hn : T.file.vars "h" with
    | none => rw [hn] at hg; cases hg
    | some v => rw [hn] at hg; rw [hv "h" v hn]; exact hg

lemma assign_defined (rnd : ℝ → ℝ) (C : File) (i : ℤ) (n : String) (v : Value) : (assign rnd C i n v).2.defined = C.defined ∧ (assign rnd C i n v).2.shape2 = C.shape2 := by
  unfold assign
  cases C.vars n with
  | none => exact ⟨rfl, rfl⟩
  | some var =>
    dsimp only
    by_cases hi : i < 0
    · rw [if_pos hi]; exact ⟨rfl, rfl⟩
    rw [if_neg hi]
    cases v.entries (if var.framed = true then var.dims else var.dims.tail) with
    | none => exact ⟨rfl, rfl⟩
    | some g =>
      dsimp only
      by_cases h1 : ∃ idx, inside (if var.framed = true then var.dims else var.dims.tail) idx = true ∧ ∃ e, convert rnd var.kind (g idx) = .error e
      · rw [if_pos h1]; exact ⟨rfl, rfl⟩
      · rw [if_neg h1]
        by_cases h2 : var.framed = true
        · rw [if_pos h2]; exact ⟨rfl, rfl⟩
        · rw [if_neg h2]
          by_cases h3 : var.dims.headD 0 ≤ i.toNat
          · rw [if_pos h3]; exact ⟨rfl, rfl⟩
          · rw [if_neg h3]; exact ⟨rfl, rfl⟩

lemma create_defined {C C' : File} {n : String} {v : Value} {sh : Option (List ℕ)} (h : createIfMissing C n v sh = .ok C') : C'.defined = C.defined ∧ C'.shape2 = C.shape2 := by
  unfold createIfMissing at h
  dsimp only at h
  repeat' split at h
  all_goals first | cases h; exact ⟨rfl, rfl⟩ | cases h

lemma step_defined (rnd : ℝ → ℝ) (C : File) (op : Op) (h : definedBy C op = none) (hd : C.defined = false) : (step rnd C op).2.defined = false := by
  cases op with
  | write i n v =>
    simp only [step]
    cases frame C i with
    | error e => exact hd
    | ok F =>
      simp only [frameSet]
      by_cases c1 : n = ""
      · rw [if_pos c1]; exact hd
      rw [if_neg c1]
      by_cases c2 : isPrivate n = true
      · rw [if_pos c2]; exact hd
      · rw [if_neg c2]
        cases hc : createIfMissing C n v none with
        | error e => exact hd
        | ok C' => exact (assign_defined rnd C' F.i n v).1.trans ((create_defined hc).1.trans hd)
  | grid i n nx ny g x0 y0 =>
    simp only [step]
    cases frame C i with
    | error e => exact hd
    | ok F =>
      simp only [setGrid]
      cases C.shape with
      | none => exact hd
      | some sh =>
        dsimp only
        cases hc : createIfMissing C n (.arr [nx, ny] fun l => g (l.headD 0) (l.tail.headD 0)) (some sh) with
        | error e => exact hd
        | ok C' =>
          have := (create_defined hc).1.trans hd
          dsimp only
          repeat' split
          all_goals exact this
  | shape s ndof =>
    simp only [definedBy] at h
    split_ifs at h with h'
    simpa [step, hd] using h'
  | rigid hx hy hh ndof =>
    simp only [definedBy] at h
    split_ifs at h with h'
    have hs : (setShape C [hx, hy] ndof).2.defined = false := by simpa [hd] using h'
    simp only [step, setRigid]
    generalize setShape C [hx, hy] ndof = z at hs
    obtain ⟨r, C'⟩ := z
    cases r with
    | error e => exact hs
    | ok u =>
      have he : (ensureH C' hx hy).defined = false := by unfold ensureH; split <;> exact hs
      dsimp only
      split
      · exact he
      · split_ifs <;> exact he
  | next =>
    simp only [step, nextFrame]
    cases frame C C.cur <;> exact hd
  | cursor n => exact hd

/-- The grid on disk is that of the container. -/
def GridSafe (T : Tracked) : Prop := T.kept.defined = T.file.defined ∧ (T.file.defined = true → T.kept.shape2 = T.file.shape2)

lemma gridSafe_step (rnd : ℝ → ℝ) (T : Tracked) (o : DOp) (h : GridSafe T) : GridSafe (dstep rnd T o) := by
  cases o with
  | sync => exact ⟨rfl, fun _ => rfl⟩
  | call op =>
    have hxt := (step_ext rnd T.file op 0 "x").1
    simp only [dstep]
    cases hd : definedBy T.file op with
    | none =>
      dsimp only
      cases hf : T.file.defined with
      | false =>
        have := step_defined rnd T.file op hd hf
        exact ⟨h.1.trans (hf.trans this.symm), fun h' => absurd (this.symm.trans h') (by simp)⟩
      | true =>
        obtain ⟨a, -, b⟩ := hxt.defined hf
        exact ⟨h.1.trans (hf.trans a.symm), fun _ => (h.2 hf).trans b.symm⟩
    | some D =>
      dsimp only
      have key : D.defined = true ∧ Ext D (step rnd T.file op).2 := by
        cases op with
        | shape s ndof =>
          simp only [definedBy] at hd
          split_ifs at hd with h'
          cases hd
          exact ⟨h'.2, Ext.refl _⟩
        | rigid hx hy hh ndof =>
          simp only [definedBy] at hd
          split_ifs at hd with h'
          cases hd
          refine ⟨h'.2, ?_⟩
          have hD : (setShape T.file [hx, hy] ndof).2.defined = true := h'.2
          have hq : (setRigid T.file hx hy hh ndof).2 = (setShape T.file [hx, hy] ndof).2 ∨ Ext (setShape T.file [hx, hy] ndof).2 (setRigid T.file hx hy hh ndof).2 := by
            unfold setRigid
            generalize hz : setShape T.file [hx, hy] ndof = z
            obtain ⟨r, C'⟩ := z
            cases r with
            | error e => exact Or.inl rfl
            | ok u =>
              right
              have he : Ext C' (ensureH C' hx hy) := by
                unfold ensureH
                cases hh' : C'.vars "h" with
                | some v => exact Ext.refl _
                | none => exact (add_ext C' "h" .f8 false [hx, hy] hh' (fun h => absurd rfl h) 0 "x").1
              dsimp only
              cases hv : (ensureH C' hx hy).vars "h" with
              | none => exact he
              | some v =>
                dsimp only
                split_ifs
                · exact he.trans (replace_ext _ "h" v hv _ _ le_rfl 0 "x" (fun h => absurd h (by decide))).1
                · exact he
          rcases hq with hq | hq
          · show Ext _ (setRigid T.file hx hy hh ndof).2
            rw [hq]; exact Ext.refl _
          · exact hq
        | _ => cases hd
      obtain ⟨a, -, b⟩ := key.2.defined key.1
      exact ⟨key.1.trans a.symm, fun _ => b.symm⟩

lemma gridSafe_run (rnd : ℝ → ℝ) (l : List DOp) : ∀ T, GridSafe T → GridSafe (drun rnd T l) := by
  induction l with
  | nil => intro T h; exact h
  | cons o l ih => intro T h; exact ih _ (gridSafe_step rnd T o h)

/-- **C215, grid.**  Whenever the process dies after the grid was set, the file can be opened again and has that grid. -/
theorem C215_grid (rnd : ℝ → ℝ) (d : Bool) (f : ℕ) (ops : List DOp) {nx ny : ℕ} (h : (drun rnd (fresh d f) ops).file.defined = true)
    (hs : (drun rnd (fresh d f) ops).file.shape2 = some (nx, ny)) {D : File} (hD : OnDisk (drun rnd (fresh d f) ops) D) (e : Bool) (fr : ℤ) :
    ∃ D', reopen D e fr = .ok D' ∧ D'.shape = some [nx, ny] := by
  obtain ⟨h1, h2⟩ := gridSafe_run rnd ops (fresh d f) ⟨rfl, fun h => rfl⟩
  obtain ⟨g1, g2⟩ := hD.grid
  rw [h1, h] at g1
  rw [h2 h, hs] at g2
  unfold reopen
  rw [g2]
  simp only [g1, if_true]
  exact ⟨_, rfl, rfl⟩

/-- The state that is on disk while the command line runs: the grid, and no frame. -/
def gridOnly (nx ny : ℕ) : File := (setShape (create true 0) [nx, ny] none).2

lemma kept_dumps (rnd : ℝ → ℝ) (K : File) : ∀ (outs : List CM.Cli.Output) (k : ℕ) (T : Tracked), T.kept = K → (drun rnd T (dumpsNc k outs)).kept = K := by
  intro outs
  induction outs with
  | nil => intro k T h; exact h
  | cons o os ih =>
    intro k T h
    rw [dumpsNc, drun_append]
    exact ih (k + 1) _ h

/-- **C216: false of the code.**  The command line does not synchronise: whatever steps it has completed, a crash before it closes the file may leave a file with the grid and not a
single frame. -/
theorem C216_command_line_partial (rnd : ℝ → ℝ) (nx ny : ℕ) (outs : List CM.Cli.Output) :
    OnDisk (drun rnd (fresh true 0) (cliNc [nx, ny] outs)) (gridOnly nx ny) ∧ ∀ e : Bool, ∃ D', reopen (gridOnly nx ny) e 0 = .ok D' ∧ D'.frames = 0 ∧
      ∀ i n, 0 ≤ i → PlainName n → ∀ F, frame D' i = .ok F → ∃ err, frameGet D' F n = .error err := by
  have hk : (drun rnd (fresh true 0) (cliNc [nx, ny] outs)).kept = gridOnly nx ny := kept_dumps rnd (gridOnly nx ny) outs 0 _ rfl
  refine ⟨⟨⟨by rw [hk], Nat.zero_le _⟩, by rw [hk]; exact ⟨rfl, rfl⟩, ?_, ?_⟩, fun e => ⟨_, rfl, rfl, ?_⟩⟩
  · intro n v h
    rw [hk] at h
    cases h
  · intro n w _ h
    cases h
  · intro i n hi hn F hF
    refine ⟨.keyError, ?_⟩
    unfold frameGet
    rw [if_neg hn.1, if_neg (by rw [hn.2.1]; simp)]
    rfl

/-- The hypotheses of `C215_value` are met: a field in frame 0, synchronised, then a write to frame 1, after which the file may be as it was synchronised. -/
example (rnd : ℝ → ℝ) (g : List ℕ → ℝ) :
    (step rnd (drun rnd (fresh true 0) [.call (.shape [2, 2] none)]).file (.write 0 "gap" (.arr [2, 2] g))).1 = .ok () ∧
      Spared rnd 0 "gap" (drun rnd (fresh true 0) [.call (.shape [2, 2] none), .call (.write 0 "gap" (.arr [2, 2] g)), .sync]) [.call (.write 1 "gap" (.arr [2, 2] g))] ∧
      ∃ D, OnDisk (drun rnd (fresh true 0) [.call (.shape [2, 2] none), .call (.write 0 "gap" (.arr [2, 2] g)), .sync, .call (.write 1 "gap" (.arr [2, 2] g))]) D ∧
        D.frames = 1 ∧ (reopen D true 0).isOk = true := by
  have h : isPrivate "gap" = false := by decide
  refine ⟨?_, ⟨?_, trivial⟩, (drun rnd (fresh true 0) [.call (.shape [2, 2] none), .call (.write 0 "gap" (.arr [2, 2] g))]).file, ⟨⟨?_, ?_⟩, ⟨?_, ?_⟩, ?_, ?_⟩, ?_, ?_⟩
  · simp [drun, dstep, definedBy, fresh, step, frame, setShape, create, isSingle, defineStructure, frameSet, createIfMissing, h, assign, File.add, Value.entries, File.floatKind, convert]
  · simp [Touches, File.frameNumber]
  · exact le_rfl
  · exact (step_ext rnd _ _ 0 "x").1.frames
  · rfl
  · rfl
  · intro n v hv
    exact ⟨v, hv, ⟨rfl, rfl, rfl⟩, fun j idx => ⟨_, List.mem_cons_self, v, hv, rfl⟩⟩
  · intro n w h0 h1
    exact absurd (h0.symm.trans h1) (by simp)
  · simp [drun, dstep, definedBy, fresh, step, frame, setShape, create, isSingle, defineStructure, frameSet, createIfMissing, h, assign, File.add, Value.entries, File.floatKind, convert]
  · simp [drun, dstep, definedBy, fresh, step, frame, setShape, create, isSingle, defineStructure, frameSet, createIfMissing, h, assign, File.add, Value.entries, File.floatKind, convert, reopen, Except.isOk, Except.toBool]

end CM.NetCDF
