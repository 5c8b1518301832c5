import Verif.Spec.LoggerCrash
import Verif.Props.Logger
/-!
# C205, C206: what a crash leaves of a log
-/
namespace CM.Log

lemma execAll_nil (D : Disk) : D.execAll [] = D := rfl
lemma execAll_cons (D : Disk) (a : IO) (l : List IO) : D.execAll (a :: l) = (D.exec a).execAll l := rfl
lemma execAll_append (D : Disk) (a b : List IO) : D.execAll (a ++ b) = (D.execAll a).execAll b := by
  simp [Disk.execAll]

/-! ## The operations are those of the calls -/

lemma ioOpen_world (S : State) (D : Disk) (h : D.world = S.world) : (D.execAll (ioOpen S)).world = (openLogfile S).world := by
  unfold ioOpen openLogfile
  cases S.log.logfile with
  | some i => simp [execAll_nil, h]
  | none =>
    cases S.log.logfn with
    | none => simp [execAll_nil, h]
    | some t =>
      dsimp only
      by_cases hf : S.world.hasFile (t.name S.log.it) = true
      · rw [if_pos hf, if_pos hf]
        simp [execAll_cons, execAll_nil, Disk.exec, h]
      · rw [if_neg hf, if_neg hf]
        simp [execAll_cons, execAll_nil, Disk.exec, h]

lemma ioPrint_world (L : Logger) (s : Text) (e : Option ℕ) (D : Disk) : (D.execAll (ioPrint L s e)).world = (print ⟨L, D.world⟩ s e).world := by
  unfold ioPrint print
  rw [execAll_append]
  cases hl : L.logfile with
  | none =>
    cases e with
    | none => rfl
    | some f => simp [execAll_cons, execAll_nil, Disk.exec]
  | some i =>
    cases e with
    | none => simp [execAll_cons, execAll_nil, Disk.exec]
    | some f =>
      by_cases hf : some i = some f
      · simp only [if_pos hf]; rfl
      · simp only [if_neg hf]; rfl

lemma ioFlush_world (L : Logger) (D : Disk) : (D.execAll (ioFlush L)).world = D.world := by
  unfold ioFlush
  cases L.logfile <;> rfl

lemma writes_world (i : ℕ) (l : List Text) : ∀ (L : Logger), L.logfile = some i → ∀ D : Disk, (D.execAll (l.map (.write i))).world = (replay ⟨L, D.world⟩ l).world := by
  induction l with
  | nil => intro L _ D; rfl
  | cons s l ih =>
    intro L hL D
    rw [List.map_cons, execAll_cons, ih L hL]
    have : print ⟨L, D.world⟩ s = ⟨L, D.world.write i s⟩ := by unfold print; simp [hL]
    show _ = (replay (print ⟨L, D.world⟩ s) l).world
    rw [this]
    rfl

lemma flatMap_print (L : Logger) (i : ℕ) (hL : L.logfile = some i) (l : List Text) : l.flatMap (fun s => ioPrint L s) = l.map (.write i) := by
  induction l with
  | nil => rfl
  | cons s l ih => rw [List.flatMap_cons, List.map_cons, ih]; simp [ioPrint, hL]

lemma flatMap_print_none (L : Logger) (hL : L.logfile = none) (l : List Text) : l.flatMap (fun s => ioPrint L s) = [] := by
  induction l with
  | nil => rfl
  | cons s l ih => rw [List.flatMap_cons, ih]; simp [ioPrint, hL]

lemma print_logfile (S : State) (s : Text) (e : Option ℕ) : (print S s e).log.logfile = S.log.logfile := by
  unfold print
  cases hl : S.log.logfile with
  | none => simp [hl]
  | some i => simp [hl]

lemma ioPrint_congr (L L' : Logger) (h : L.logfile = L'.logfile) (s : Text) (e : Option ℕ) : ioPrint L s e = ioPrint L' s e := by
  unfold ioPrint; rw [h]

lemma print_world_congr (L L' : Logger) (h : L.logfile = L'.logfile) (W : World) (s : Text) (e : Option ℕ) :
    (print ⟨L, W⟩ s e).world = (print ⟨L', W⟩ s e).world := by
  unfold print
  simp only [h]
  cases L'.logfile <;> rfl

lemma ioRecord_world (S : State) (D : Disk) (h : D.world = S.world) (hdr : List Text) (vals : List Val) :
    (D.execAll (ioRecord S.log hdr vals)).world = (printRecord S hdr vals).2.world := by
  unfold ioRecord printRecord printHeader
  dsimp only
  by_cases hs : S.log.sepcounter - 1 ≤ 0
  · rw [if_pos hs, if_pos hs]
    cases hh : headerLine hdr vals with
    | error e => simp [Except.map, execAll_nil, h]
    | ok H =>
      simp only [Except.map]
      cases hr : recordLine vals with
      | error e =>
        simp only
        rw [ioPrint_world, h]
        exact print_world_congr S.log { S.log with sepcounter := S.log.sepcounter - 1 } rfl _ _ _
      | ok r =>
        simp only
        rw [execAll_append, execAll_append, ioFlush_world, ioPrint_world, ioPrint_world, h]
        rw [print_world_congr S.log { S.log with sepcounter := S.log.sepcounter - 1 } rfl S.world H]
        exact print_world_congr _ _ (by simp only [print_logfile]) _ _ _
  · rw [if_neg hs, if_neg hs]
    cases hr : recordLine vals with
    | error e => simp [execAll_nil, h]
    | ok r =>
      simp only
      rw [List.nil_append, execAll_append, ioFlush_world, ioPrint_world, h]
      exact print_world_congr S.log { S.log with sepcounter := S.log.sepcounter - 1 } rfl _ _ _

/-- The operations of a call leave the files as the call does. -/
lemma ioStep_world (S : State) (D : Disk) (h : D.world = S.world) (op : Op) : (D.execAll (ioStep S op)).world = (step S op).2.world := by
  have hpr : ∀ c t e, (D.execAll (ioPr S c t e)).world = (pr S c t e).world := by
    intro c t e
    unfold ioPr pr
    rw [execAll_append, execAll_append, ioFlush_world, ioPrint_world, ioOpen_world S D h]
  cases op with
  | pr c t => exact hpr c t none
  | warn c t => exact hpr c _ (some 0)
  | st hdr v f =>
    simp only [ioStep, step, ioSt, st]
    by_cases hl : hdr.length ≠ v.length
    · rw [if_pos hl, if_pos hl]; exact h
    rw [if_neg hl, if_neg hl, execAll_append]
    have ho := ioOpen_world S D h
    generalize openLogfile S = T at ho ⊢
    by_cases h1 : T.log.outevery = 1
    · rw [if_pos (Or.inl h1), if_pos h1]; exact ioRecord_world T _ ho hdr v
    rw [if_neg h1]
    by_cases h2 : T.log.outcounter - 1 ≤ 0
    · rw [if_pos (Or.inr (Or.inl h2)), if_pos h2]
      exact ioRecord_world ⟨{ T.log with outcounter := T.log.outevery }, T.world⟩ _ ho hdr v
    rw [if_neg h2]
    by_cases h3 : f = true
    · rw [if_pos (Or.inr (Or.inr h3)), if_pos h3]
      exact ioRecord_world ⟨{ T.log with outcounter := T.log.outcounter - 1 }, T.world⟩ _ ho hdr v
    rw [if_neg (by tauto), if_neg h3]
    exact ho
  | setLogfile a =>
    simp only [ioStep, step, ioSetLogfile, setLogfile]
    cases a with
    | none => simp [execAll_nil, h]
    | handle i =>
      simp only [Option.isSome_some, if_true]
      rw [writes_world i S.log.buffer { S.log with logfile := some i } rfl D, h]
    | plain fn =>
      dsimp only
      rw [execAll_cons]
      simp only [Option.isSome_some, if_true]
      rw [writes_world (S.world.openW fn).1 S.log.buffer { S.log with logfile := some (S.world.openW fn).1 } rfl]
      simp only [Disk.exec, h]
    | template t =>
      dsimp only
      rw [execAll_append]
      have ho := ioOpen_world ⟨{ S.log with logfn := some t }, S.world⟩ D h
      have key : ∀ (E : Disk) (T : State), E.world = T.world →
          (E.execAll (T.log.buffer.flatMap fun s => ioPrint T.log s)).world = (if T.log.logfile.isSome then replay T T.log.buffer else T).world := by
        intro E T ho
        cases hT : T.log.logfile with
        | none =>
          rw [flatMap_print_none _ hT, execAll_nil]
          simp [ho]
        | some i =>
          rw [flatMap_print _ i hT, writes_world i _ T.log hT, ho]
          simp
      exact key _ _ ho
  | setOutevery n => exact h
  | iterationFinished => exact h

lemma ioRun_world (ops : List Op) : ∀ (S : State) (D : Disk), D.world = S.world → (D.execAll (ioRun S ops)).world = (run S ops).world := by
  induction ops with
  | nil => intro S D h; exact h
  | cons op ops ih =>
    intro S D h
    unfold ioRun
    rw [execAll_append]
    exact ih _ _ (ioStep_world S D h op)

/-! ## Completed calls leave nothing in a buffer -/

lemma cells_ok (cols : List Val) : ∀ args : List Text, cols.length ≤ args.length → ∃ r, cells cols args = .ok r := by
  induction cols with
  | nil => intro args _; exact ⟨[], rfl⟩
  | cons v cols ih =>
    intro args hl
    cases args with
    | nil => simp at hl
    | cons a as =>
      obtain ⟨r, hr⟩ := ih as (by simpa using hl)
      cases v with
      | leaf w t => exact ⟨padLeft w a :: r, by simp [cells, hr]⟩
      | vec l => exact ⟨['[', ']'] :: r, by simp [cells, hr]⟩

/-- If the line of values cannot be made, neither can the header. -/
lemma header_error (hdr : List Text) (vals : List Val) (e : PyErr) (h : recordLine vals = .error e) : ∃ e', headerLine hdr vals = .error e' := by
  unfold recordLine render at h
  split at h
  · rename_i l hc
    unfold headerLine render
    rw [hc]
    exact ⟨_, rfl⟩
  · obtain ⟨r, hr⟩ := cells_ok (flatten (.vec vals)) ((flatten (.vec vals)).map textOf) (by simp)
    rw [hr] at h
    simp [bind, Except.bind, pure, Except.pure] at h

/-- Everything but what is printed to file `i` is on disk. -/
def SyncedBut (D : Disk) (i : Option ℕ) : Prop := ∀ j, j ≠ 0 → some j ≠ i → D.safe j = (D.world.data j).length

lemma Synced.but {D : Disk} (h : D.Synced) (i : Option ℕ) : SyncedBut D i := fun j hj _ => h j hj

lemma open_synced (D : Disk) (fn : String) (h : D.Synced) : (D.exec (.openW fn)).Synced := by
  intro j hj
  cases hl : D.world.lookup fn with
  | some i =>
    simp only [Disk.exec, World.openW, hl]
    by_cases hji : j = i
    · simp [hji]
    · simp [hji, h j hj]
  | none =>
    simp only [Disk.exec, World.openW, hl]
    by_cases hji : j = D.world.next
    · simp [hji]
    · simp [hji, h j hj]

lemma ioOpen_synced (S : State) (D : Disk) (h : D.Synced) : (D.execAll (ioOpen S)).Synced := by
  unfold ioOpen
  cases S.log.logfile with
  | some i => exact h
  | none =>
    cases S.log.logfn with
    | none => exact h
    | some t =>
      dsimp only
      split_ifs
      · rw [execAll_append]
        exact open_synced _ _ (fun j hj => h j hj)
      · exact open_synced _ _ h

lemma write_but (D : Disk) (i : ℕ) (s : Text) (e : Option ℕ) (h : SyncedBut D e) (hi : i = 0 ∨ e = some i) : SyncedBut (D.exec (.write i s)) e := by
  intro j hj hje
  have hji : j ≠ i := by
    rcases hi with hi | hi
    · rw [hi]; exact hj
    · intro hc; rw [hc, hi] at hje; exact hje rfl
  simp only [Disk.exec, World.write, if_neg hji]
  exact h j hj hje

lemma ioPrint_but (L : Logger) (s : Text) (e : Option ℕ) (he : e = none ∨ e = some 0) (D : Disk) (h : SyncedBut D L.logfile) :
    SyncedBut (D.execAll (ioPrint L s e)) L.logfile := by
  unfold ioPrint
  rw [execAll_append]
  have hlast : ∀ D : Disk, SyncedBut D L.logfile → SyncedBut (D.execAll (match L.logfile with | some i => [.write i s] | none => [])) L.logfile := by
    intro D h
    cases hl : L.logfile with
    | none => rw [hl] at h; exact h
    | some i => rw [hl] at h; exact write_but D i s _ h (Or.inr rfl)
  apply hlast
  rcases he with he | he
  · rw [he]; exact h
  · rw [he]
    dsimp only
    split_ifs
    · exact h
    · exact write_but D 0 s _ h (Or.inl rfl)

lemma ioFlush_synced (L : Logger) (D : Disk) (h : SyncedBut D L.logfile) : (D.execAll (ioFlush L)).Synced := by
  intro j hj
  unfold ioFlush
  cases hl : L.logfile with
  | none => rw [hl] at h; exact h j hj (by simp)
  | some i =>
    rw [hl] at h
    simp only [execAll_cons, execAll_nil, Disk.exec]
    by_cases hji : j = i
    · simp [hji]
    · rw [if_neg hji]; exact h j hj (by simpa using hji)

lemma ioRecord_synced (L : Logger) (D : Disk) (h : D.Synced) (hdr : List Text) (vals : List Val) : (D.execAll (ioRecord L hdr vals)).Synced := by
  unfold ioRecord
  by_cases hs : L.sepcounter - 1 ≤ 0
  · rw [if_pos hs]
    cases hh : headerLine hdr vals with
    | error e => exact h
    | ok H =>
      simp only [Except.map]
      cases hr : recordLine vals with
      | error e =>
        obtain ⟨e', he'⟩ := header_error hdr vals e hr
        rw [he'] at hh
        cases hh
      | ok r =>
        simp only
        rw [execAll_append, execAll_append]
        exact ioFlush_synced _ _ (ioPrint_but _ _ _ (Or.inl rfl) _ (ioPrint_but _ _ _ (Or.inl rfl) _ (Synced.but h _)))
  · rw [if_neg hs]
    cases hr : recordLine vals with
    | error e => exact h
    | ok r =>
      simp only
      rw [List.nil_append, execAll_append]
      exact ioFlush_synced _ _ (ioPrint_but _ _ _ (Or.inl rfl) _ (Synced.but h _))

/-- **C205.**  When nothing waits in a buffer before a call, nothing does when it has returned or raised, unless it is `set_logfile` with lines that waited for a file. -/
theorem C205_synced (S : State) (D : Disk) (h : D.Synced) (op : Op) (hop : op.NoBacklog S) : (D.execAll (ioStep S op)).Synced := by
  have hpr : ∀ c t e, (e = none ∨ e = some 0) → (D.execAll (ioPr S c t e)).Synced := by
    intro c t e he
    unfold ioPr
    rw [execAll_append, execAll_append]
    exact ioFlush_synced _ _ (ioPrint_but _ _ _ he _ (Synced.but (ioOpen_synced S D h) _))
  cases op with
  | pr c t => exact hpr c t none (Or.inl rfl)
  | warn c t => exact hpr c _ (some 0) (Or.inr rfl)
  | st hdr v f =>
    simp only [ioStep, ioSt]
    split_ifs
    · exact h
    · rw [execAll_append]; exact ioRecord_synced _ _ (ioOpen_synced S D h) _ _
    · rw [execAll_append]; exact ioOpen_synced S D h
  | setLogfile a =>
    have hb : S.log.buffer = [] := hop
    simp only [ioStep, ioSetLogfile]
    cases a with
    | none => exact h
    | handle i => rw [hb]; exact h
    | plain fn =>
      dsimp only
      rw [hb, List.map_nil]
      exact open_synced D fn h
    | template t =>
      dsimp only
      have hb' : (openLogfile ⟨{ S.log with logfn := some t }, S.world⟩).log.buffer = [] := by
        unfold openLogfile
        split <;> simp [hb]
      rw [hb', List.flatMap_nil, List.append_nil]
      exact ioOpen_synced _ D h
  | setOutevery n => exact h
  | iterationFinished => exact h

/-! ## What is on disk stays there -/

/-- No operation opens an existing file for writing. -/
def Gentle : Disk → List IO → Prop
  | _, [] => True
  | D, a :: l => (∀ fn, a = .openW fn → D.world.lookup fn = none) ∧ Gentle (D.exec a) l

lemma Gentle_cons (D : Disk) (a : IO) (l : List IO) : Gentle D (a :: l) ↔ (∀ fn, a = .openW fn → D.world.lookup fn = none) ∧ Gentle (D.exec a) l := Iff.rfl

lemma Gentle_append (a : List IO) : ∀ (D : Disk) (b : List IO), Gentle D (a ++ b) ↔ Gentle D a ∧ Gentle (D.execAll a) b := by
  induction a with
  | nil => intro D b; simp [Gentle, execAll_nil]
  | cons x a ih =>
    intro D b
    rw [List.cons_append, Gentle_cons, Gentle_cons, ih, execAll_cons]
    tauto

lemma gentle_of_no_open (l : List IO) (h : ∀ a ∈ l, ∀ fn, a ≠ .openW fn) : ∀ D, Gentle D l := by
  induction l with
  | nil => intro D; trivial
  | cons a l ih =>
    intro D
    exact ⟨fun fn hfn => absurd hfn (h a (by simp) fn), ih (fun b hb => h b (by simp [hb])) _⟩

lemma ioPrint_no_open (L : Logger) (s : Text) (e : Option ℕ) : ∀ a ∈ ioPrint L s e, ∀ fn, a ≠ .openW fn := by
  intro a ha fn hfn
  subst hfn
  unfold ioPrint at ha
  cases hl : L.logfile with
  | none =>
    rw [hl] at ha
    cases e <;> simp at ha
  | some i =>
    rw [hl] at ha
    cases e with
    | none => simp at ha
    | some f =>
      simp only [List.mem_append] at ha
      split_ifs at ha <;> simp at ha

lemma ioFlush_no_open (L : Logger) : ∀ a ∈ ioFlush L, ∀ fn, a ≠ .openW fn := by
  intro a ha fn hfn
  subst hfn
  unfold ioFlush at ha
  cases hl : L.logfile <;> rw [hl] at ha <;> simp at ha

lemma ioRecord_no_open (L : Logger) (hdr : List Text) (vals : List Val) : ∀ a ∈ ioRecord L hdr vals, ∀ fn, a ≠ .openW fn := by
  intro a ha
  unfold ioRecord at ha
  by_cases hs : L.sepcounter - 1 ≤ 0
  · rw [if_pos hs] at ha
    cases hh : headerLine hdr vals with
    | error e => rw [hh] at ha; simp [Except.map] at ha
    | ok H =>
      rw [hh] at ha
      simp only [Except.map] at ha
      cases hr : recordLine vals with
      | error e => rw [hr] at ha; exact ioPrint_no_open _ _ _ a ha
      | ok r =>
        rw [hr] at ha
        simp only [List.mem_append] at ha
        rcases ha with (ha | ha) | ha
        · exact ioPrint_no_open _ _ _ a ha
        · exact ioPrint_no_open _ _ _ a ha
        · exact ioFlush_no_open _ a ha
  · rw [if_neg hs] at ha
    cases hr : recordLine vals with
    | error e => rw [hr] at ha; simp at ha
    | ok r =>
      rw [hr] at ha
      simp only [List.nil_append, List.mem_append] at ha
      rcases ha with ha | ha
      · exact ioPrint_no_open _ _ _ a ha
      · exact ioFlush_no_open _ a ha

lemma ioOpen_gentle (S : State) (D : Disk) (h : D.world = S.world) (hW : S.world.Ok) : Gentle D (ioOpen S) := by
  unfold ioOpen
  cases S.log.logfile with
  | some i => trivial
  | none =>
    cases S.log.logfn with
    | none => trivial
    | some t =>
      dsimp only
      have hm := (moved_spec S.world hW (t.name S.log.it)).2.2.2.1
      unfold moved at hm
      split_ifs at hm ⊢ with hf
      · refine ⟨fun fn hfn => (by cases hfn), fun fn hfn => ?_, trivial⟩
        cases hfn
        rw [lookup_none]
        simp only [Disk.exec, h]
        exact hm
      · refine ⟨fun fn hfn => ?_, trivial⟩
        cases hfn
        rw [lookup_none, h]
        exact hm

lemma ioStep_gentle (S : State) (D : Disk) (h : D.world = S.world) (hW : S.world.Ok) (op : Op) (hop : op.NotPlain) : Gentle D (ioStep S op) := by
  have hpr : ∀ c t e, Gentle D (ioPr S c t e) := by
    intro c t e
    unfold ioPr
    rw [List.append_assoc, Gentle_append]
    refine ⟨ioOpen_gentle S D h hW, gentle_of_no_open _ ?_ _⟩
    intro a ha
    rcases List.mem_append.1 ha with ha | ha
    · exact ioPrint_no_open _ _ _ a ha
    · exact ioFlush_no_open _ a ha
  cases op with
  | pr c t => exact hpr c t none
  | warn c t => exact hpr c _ (some 0)
  | st hdr v f =>
    simp only [ioStep, ioSt]
    split_ifs
    · trivial
    · rw [Gentle_append]; exact ⟨ioOpen_gentle S D h hW, gentle_of_no_open _ (ioRecord_no_open _ _ _) _⟩
    · rw [List.append_nil]; exact ioOpen_gentle S D h hW
  | setLogfile a =>
    simp only [ioStep, ioSetLogfile]
    cases a with
    | none => trivial
    | handle i => exact gentle_of_no_open _ (fun a ha fn hfn => by subst hfn; simp at ha) _
    | plain fn => exact absurd hop (by simp [Op.NotPlain])
    | template t =>
      dsimp only
      rw [Gentle_append]
      refine ⟨ioOpen_gentle ⟨{ S.log with logfn := some t }, S.world⟩ D h hW, gentle_of_no_open _ ?_ _⟩
      intro a ha
      obtain ⟨s, _, hs⟩ := List.mem_flatMap.1 ha
      exact ioPrint_no_open _ _ _ a hs
  | setOutevery n => trivial
  | iterationFinished => trivial

lemma ioRun_gentle (ops : List Op) : ∀ (S : State) (D : Disk), D.world = S.world → S.world.Ok → 0 < S.world.next → (∀ op ∈ ops, op.NotPlain) → Gentle D (ioRun S ops) := by
  induction ops with
  | nil => intro S D _ _ _ _; trivial
  | cons op ops ih =>
    intro S D h hW hn hops
    have hk := step_keeps S hW hn op (hops op (by simp))
    unfold ioRun
    rw [Gentle_append]
    exact ⟨ioStep_gentle S D h hW op (hops op (by simp)),
      ih _ _ (ioStep_world S D h op) hk.1 (lt_of_lt_of_le hn hk.2.1) (fun o ho => hops o (by simp [ho]))⟩

/-- The lines `t` at the beginning of file `i` are on disk. -/
def Has (i : ℕ) (t : List Text) (D : Disk) : Prop := i < D.world.next ∧ t <+: D.world.data i ∧ t.length ≤ D.safe i

lemma exec_has (i : ℕ) (t : List Text) (D : Disk) (a : IO) (ha : ∀ fn, a = .openW fn → D.world.lookup fn = none) (h : Has i t D) : Has i t (D.exec a) := by
  obtain ⟨h1, h2, h3⟩ := h
  cases a with
  | rename a b => exact ⟨h1, h2, h3⟩
  | openW fn =>
    have hl := ha fn rfl
    unfold Has
    simp only [Disk.exec, World.openW, hl]
    refine ⟨by omega, ?_, ?_⟩
    · rw [if_neg (by omega)]; exact h2
    · rw [if_neg (by omega)]; exact h3
  | write j s =>
    refine ⟨h1, ?_, h3⟩
    simp only [Disk.exec, World.write]
    split_ifs
    · exact h2.trans (List.prefix_append _ _)
    · exact h2
  | flush j =>
    refine ⟨h1, h2, ?_⟩
    simp only [Disk.exec]
    split_ifs with hj
    · rw [← hj]; exact h2.length_le
    · exact h3

lemma execAll_has (i : ℕ) (t : List Text) (l : List IO) : ∀ D, Gentle D l → Has i t D → Has i t (D.execAll l) := by
  induction l with
  | nil => intro D _ h; exact h
  | cons a l ih =>
    intro D hg h
    exact ih _ hg.2 (exec_has i t D a hg.1 h)

lemma fileText_prefix {a b : List Text} (h : a <+: b) : fileText a <+: fileText b := by
  obtain ⟨c, rfl⟩ := h
  unfold fileText
  rw [List.flatMap_append]
  exact List.prefix_append _ _

lemma has_content (i : ℕ) (t : List Text) (D : Disk) (h : Has i t D) (c : Text) (hc : D.MayContain i c) : fileText t <+: c := by
  refine (fileText_prefix ?_).trans hc.1
  rw [List.prefix_take_iff]
  exact ⟨h.2.1, h.2.2⟩

lemma notPlain_of (op : Op) (h : ∀ fn, op ≠ .setLogfile (.plain fn)) : op.NotPlain := by
  cases op with
  | setLogfile a => cases a with
    | plain fn => exact absurd rfl (h fn)
    | _ => trivial
  | _ => trivial

lemma synced_run (ops : List Op) : ∀ (S : State) (D : Disk), D.Synced →
    (∀ k (hk : k < ops.length), (ops[k]).NoBacklog (run S (ops.take k))) → (D.execAll (ioRun S ops)).Synced := by
  induction ops with
  | nil => intro S D h _; exact h
  | cons op ops ih =>
    intro S D h hops
    unfold ioRun
    rw [execAll_append]
    refine ih _ _ (C205_synced S D h op (hops 0 (by simp))) ?_
    intro k hk
    exact hops (k + 1) (by simpa using hk)

/-- **C205.**  The process dies at any point of any history of calls: `ops` are the calls that had returned (or raised) before, `more` those that came later, and `l` the operations of
the latter that were still carried out, down to the middle of a call.  If no text waited in a buffer at the beginning, no call named a file to be overwritten, and no log file was
set while lines waited for one: every file is found with all lines that were printed to it by the time `ops` were done, at its beginning, and what follows is a part of the lines that `more` print. -/
theorem C205_crash (S : State) (D : Disk) (hD : D.world = S.world) (hs : D.Synced) (hW : S.world.Ok) (hn : 0 < S.world.next) (ops more : List Op)
    (hplain : ∀ op ∈ ops ++ more, ∀ fn, op ≠ .setLogfile (.plain fn))
    (hback : ∀ k (hk : k < ops.length), (ops[k]).NoBacklog (run S (ops.take k)))
    (l : List IO) (hl : l <+: ioRun (run S ops) more) (i : ℕ) (hi : i ≠ 0) (hi' : i < (run S ops).world.next) (c : Text)
    (hc : ((D.execAll (ioRun S ops)).execAll l).MayContain i c) :
    fileText ((run S ops).world.data i) <+: c ∧ c <+: fileText ((run S (ops ++ more)).world.data i) := by
  have hk := run_keeps ops S hW hn (fun op hop => notPlain_of op (hplain op (by simp [hop])))
  have hw := ioRun_world ops S D hD
  have hsync := synced_run ops S D hs hback
  have hg := ioRun_gentle more (run S ops) (D.execAll (ioRun S ops)) hw hk.1 (lt_of_lt_of_le hn hk.2.1)
    (fun op hop => notPlain_of op (hplain op (by simp [hop])))
  obtain ⟨r, hr⟩ := hl
  have hg' := hg
  rw [← hr, Gentle_append] at hg'
  have h0 : Has i ((run S ops).world.data i) (D.execAll (ioRun S ops)) :=
    ⟨by rw [hw]; exact hi', by rw [hw], by rw [hsync i hi, hw]⟩
  refine ⟨has_content _ _ _ (execAll_has _ _ l _ hg'.1 h0) c hc, hc.2.trans (fileText_prefix ?_)⟩
  -- what is there at the crash is there at the end
  set E := (D.execAll (ioRun S ops)).execAll l with hE
  have hend : (E.execAll r).world = (run S (ops ++ more)).world := by
    rw [hE, ← execAll_append, hr, run_append]
    exact ioRun_world more _ _ hw
  rw [← hend]
  have hgrow : ∀ (r : List IO) (E : Disk), Gentle E r → i < E.world.next → E.world.data i <+: (E.execAll r).world.data i := by
    intro r
    induction r with
    | nil => intro E _ _; exact List.prefix_refl _
    | cons a r ih =>
      intro E hg hi
      have h1 : Has i (E.world.data i) (⟨E.world, fun _ => (E.world.data i).length⟩ : Disk) := ⟨hi, List.prefix_refl _, le_rfl⟩
      have h2 := exec_has i _ _ a (by exact hg.1) h1
      have h3 : ((⟨E.world, fun _ => (E.world.data i).length⟩ : Disk).exec a).world = (E.exec a).world := by cases a <;> rfl
      unfold Has at h2
      rw [h3] at h2
      exact h2.2.1.trans (ih _ hg.2 h2.1)
  exact hgrow r E hg'.2 (execAll_has _ _ l _ hg'.1 h0).1

/-- **C205.**  The operations are those of the calls: carried out in full they leave the files of `Verif/Model/Logger.lean`. -/
theorem C205_operations (S : State) (D : Disk) (hD : D.world = S.world) (ops : List Op) : (D.execAll (ioRun S ops)).world = (run S ops).world :=
  ioRun_world ops S D hD

/-- A call that prints to the log and returns flushes the log file. -/
lemma ioStep_flushes (S : State) (D : Disk) (hD : D.world = S.world) (op : Op)
    (hop : (∃ c t, op = .pr c t) ∨ (∃ c t, op = .warn c t) ∨ ∃ h v f, op = .st h v f ∧ (S.log.outevery = 1 ∨ f = true))
    (hok : (step S op).1 = .ok ()) (i : ℕ) (hi : (step S op).2.log.logfile = some i) :
    (D.execAll (ioStep S op)).safe i = ((step S op).2.world.data i).length := by
  have hw := ioStep_world S D hD op
  rw [← hw]
  have hlast : ∀ (E : Disk) (L : Logger), L.logfile = some i → (E.execAll (ioFlush L)).safe i = ((E.execAll (ioFlush L)).world.data i).length := by
    intro E L hL
    simp [ioFlush, hL, execAll_cons, execAll_nil, Disk.exec]
  rcases hop with ⟨c, t, rfl⟩ | ⟨c, t, rfl⟩ | ⟨h, v, f, rfl, hf⟩
  · simp only [ioStep, ioPr]
    rw [execAll_append]
    refine hlast _ _ ?_
    simpa only [step, pr, print_logfile] using hi
  · simp only [ioStep, ioPr]
    rw [execAll_append]
    refine hlast _ _ ?_
    simpa only [step, warn, pr, print_logfile] using hi
  · have hrec : ∀ (T : State) (E : Disk), (printRecord T h v).1 = .ok () → (printRecord T h v).2.log.logfile = some i →
        (E.execAll (ioRecord T.log h v)).safe i = ((E.execAll (ioRecord T.log h v)).world.data i).length := by
      intro T E h1 h2
      unfold printRecord printHeader at h1 h2
      unfold ioRecord
      dsimp only at h1 h2
      split_ifs at h1 h2 ⊢ with hs
      · cases hh : headerLine h v with
        | error e => rw [hh] at h1; simp at h1
        | ok H =>
          rw [hh] at h1 h2
          dsimp only at h1 h2
          simp only [Except.map]
          cases hr : recordLine v with
          | error e => rw [hr] at h1; simp at h1
          | ok r =>
            rw [hr] at h2
            simp only [print_logfile] at h2
            simp only
            rw [execAll_append]
            exact hlast _ _ h2
      · cases hr : recordLine v with
        | error e => rw [hr] at h1; simp at h1
        | ok r =>
          rw [hr] at h2
          simp only [print_logfile] at h2
          simp only
          rw [execAll_append]
          exact hlast _ _ h2
    simp only [step, st] at hok hi
    simp only [ioStep, ioSt]
    by_cases hl : h.length ≠ v.length
    · rw [if_pos hl] at hok; simp at hok
    rw [if_neg hl] at hok hi ⊢
    have he : (openLogfile S).log.outevery = S.log.outevery := by unfold openLogfile; split <;> rfl
    rw [execAll_append]
    generalize D.execAll (ioOpen S) = E
    rw [← he] at hf
    generalize openLogfile S = T at hok hi hf ⊢
    by_cases h1 : T.log.outevery = 1
    · rw [if_pos h1] at hok hi
      rw [if_pos (Or.inl h1)]
      exact hrec T _ hok hi
    rw [if_neg h1] at hok hi
    by_cases h2 : T.log.outcounter - 1 ≤ 0
    · rw [if_pos h2] at hok hi
      rw [if_pos (Or.inr (Or.inl h2))]
      exact hrec ⟨{ T.log with outcounter := T.log.outevery }, T.world⟩ _ hok hi
    rw [if_neg h2] at hok hi
    have h3 : f = true := hf.resolve_left h1
    rw [if_pos h3] at hok hi
    rw [if_pos (Or.inr (Or.inr h3))]
    exact hrec ⟨{ T.log with outcounter := T.log.outcounter - 1 }, T.world⟩ _ hok hi

/-- **C205.**  Whatever waited in buffers before: once a comment, a warning or a record that is to be printed has been logged to a file (the call has returned), all lines
of that file survive a crash at any later point (of a history that names no file to be overwritten). -/
theorem C205_flushed (S : State) (D : Disk) (hD : D.world = S.world) (hW : S.world.Ok) (hn : 0 < S.world.next) (op : Op)
    (hop : (∃ c t, op = .pr c t) ∨ (∃ c t, op = .warn c t) ∨ ∃ h v f, op = .st h v f ∧ (S.log.outevery = 1 ∨ f = true))
    (hok : (step S op).1 = .ok ()) (i : ℕ) (hi : (step S op).2.log.logfile = some i) (hi' : i < (step S op).2.world.next)
    (more : List Op) (hplain : ∀ o ∈ more, ∀ fn, o ≠ .setLogfile (.plain fn))
    (l : List IO) (hl : l <+: ioRun (step S op).2 more) (c : Text) (hc : ((D.execAll (ioStep S op)).execAll l).MayContain i c) :
    fileText ((step S op).2.world.data i) <+: c := by
  have hk := step_keeps S hW hn op (by rcases hop with ⟨_, _, rfl⟩ | ⟨_, _, rfl⟩ | ⟨_, _, _, rfl, _⟩ <;> trivial)
  have hw := ioStep_world S D hD op
  have hg := ioRun_gentle more (step S op).2 (D.execAll (ioStep S op)) hw hk.1 (lt_of_lt_of_le hn hk.2.1)
    (fun o ho => notPlain_of o (hplain o ho))
  obtain ⟨r, hr⟩ := hl
  rw [← hr, Gentle_append] at hg
  refine has_content _ _ _ (execAll_has _ _ l _ hg.1 ?_) c hc
  exact ⟨by rw [hw]; exact hi', by rw [hw], by rw [ioStep_flushes S D hD op hop hok i hi]⟩

/-- **C205.**  A new logger with a new file (as the command line makes for its log), killed after the messages and records `evs` and in the middle of the messages and records `more`: the file holds
the lines of `evs` -- all messages, every `outevery`-th and every forced record, with a header before every `sepevery`-th printed one -- and then part of the text of the lines of `more`. -/
theorem C205_records (W : World) (hW : W.Ok) (hn : 0 < W.next) (D : Disk) (hD : D.world = W) (hs : D.Synced) (fn : String) (hfn : W.lookup fn = none) (o s : ℤ)
    (head line : List Text → List Val → Text) (evs more : List Event) (hok : ∀ e ∈ evs ++ more, e.Ok head line)
    (l : List IO) (hl : l <+: ioRun (run (create W (.plain fn) o s) (evs.map Event.op)) (more.map Event.op)) (c : Text)
    (hc : ((D.execAll (.openW fn :: ioRun (create W (.plain fn) o s) (evs.map Event.op))).execAll l).MayContain W.next c) :
    fileText ((List.range evs.length).flatMap (lines head line o s evs)) <+: c
      ∧ c <+: fileText ((List.range (evs ++ more).length).flatMap (lines head line o s (evs ++ more))) := by
  have hcreate : create W (.plain fn) o s = ⟨⟨s, o, o, 0, 1, none, some W.next, []⟩, (W.openW fn).2⟩ := by
    unfold create
    simp [setLogfile, World.openW, hfn, replay]
  have hex : D.execAll (.openW fn :: ioRun (create W (.plain fn) o s) (evs.map Event.op)) = (D.exec (.openW fn)).execAll (ioRun (create W (.plain fn) o s) (evs.map Event.op)) := rfl
  rw [hex] at hc
  obtain ⟨o1, o2⟩ := openW_new W hW hn fn ((lookup_none W fn).1 hfn)
  have hdata : ((create W (.plain fn) o s).world.data W.next) = [] := by rw [hcreate]; simp [World.openW, hfn]
  have hlines : ∀ evs : List Event, (∀ e ∈ evs, e.Ok head line) → (run (create W (.plain fn) o s) (evs.map Event.op)).world.data W.next
      = (List.range evs.length).flatMap (lines head line o s evs) := by
    intro evs hok
    obtain ⟨c1, c2, c3, c4, c5⟩ := C68_constructor W (.plain fn) o s
    obtain ⟨p1, p2, -, -⟩ := C68_printed (create W (.plain fn) o s) c1 c2 c3 head line evs hok
    have hlf : (create W (.plain fn) o s).log.logfile = some W.next := by rw [hcreate]
    unfold sink at p1
    rw [p2, hlf, c4, c5] at p1
    dsimp only at p1
    rw [p1, hdata, List.nil_append]
  have hns : ∀ (evs : List Event), ∀ op ∈ evs.map Event.op, ∀ a, op ≠ .setLogfile a := by
    intro evs op hop a h
    obtain ⟨e, _, rfl⟩ := List.mem_map.1 hop
    cases e <;> simp [Event.op] at h
  have hb : ∀ (S : State) (ops : List Op), (∀ op ∈ ops, ∀ a, op ≠ .setLogfile a) → ∀ k (hk : k < ops.length), (ops[k]).NoBacklog S := by
    intro S ops h k hk
    have := h _ (List.getElem_mem hk)
    cases ho : ops[k] with
    | setLogfile a => exact absurd ho (this a)
    | _ => trivial
  have hnext : W.next < (create W (.plain fn) o s).world.next := by rw [hcreate]; simp [World.openW, hfn]
  have hWc : (create W (.plain fn) o s).world.Ok := by rw [hcreate]; exact o2
  have hkeep := run_keeps (evs.map Event.op) (create W (.plain fn) o s) hWc (lt_trans hn hnext) (fun op hop => notPlain_of op fun f => hns evs op hop _)
  have h := C205_crash (create W (.plain fn) o s) (D.exec (.openW fn)) (by rw [hcreate]; simp [Disk.exec, hD]) (open_synced D fn hs) hWc (lt_trans hn hnext)
    (evs.map Event.op) (more.map Event.op)
    (by
      intro op hop f
      rcases List.mem_append.1 hop with hop | hop
      · exact hns evs op hop _
      · exact hns more op hop _)
    (fun k hk => hb _ _ (hns evs) k hk)
    l hl W.next (by omega) (lt_of_lt_of_le hnext hkeep.2.1) c hc
  rw [hlines evs (fun e he => hok e (by simp [he])), ← List.map_append, hlines (evs ++ more) hok] at h
  exact h

/-! ## A run -/

/-- No files; standard output is number `0`. -/
def noFiles : World := ⟨[], fun _ => [], 1⟩

/-- A logger that makes a file for every iteration. -/
def crashLog : State := create noFiles (.template ⟨"log-", ""⟩) 1 10

/-- A comment, and a record. -/
def crashOps : List Op := [.pr ['f'] ['a'], .st [['x']] [.leaf 2 ['7']] false]

example : crashLog.world.Ok ∧ 0 < crashLog.world.next ∧ (⟨crashLog.world, fun _ => 0⟩ : Disk).Synced
    ∧ (∀ op ∈ crashOps ++ [.warn ['f'] ['b'], .iterationFinished], ∀ fn, op ≠ .setLogfile (.plain fn))
    ∧ (∀ k (hk : k < crashOps.length), (crashOps[k]).NoBacklog (run crashLog (crashOps.take k)))
    ∧ 1 < (run crashLog crashOps).world.next ∧ ((run crashLog crashOps).world.data 1).length = 3 := by
  refine ⟨⟨by decide, by decide, by decide⟩, by decide, ?_, ?_, ?_, by decide, by decide⟩
  · intro i hi
    show 0 = ((if i = 1 then ([] : List Text) else []) : List Text).length
    split_ifs <;> rfl
  · intro op hop fn h
    subst h
    simp [crashOps] at hop
  · intro k hk
    match k, hk with
    | 0, _ => trivial
    | 1, _ => trivial

/-- The comment and the record survive a crash in the middle of the warning that follows: after the warning went to standard output and to the file, but before it was flushed. -/
example (c : Text) (hc : (((⟨crashLog.world, fun _ => 0⟩ : Disk).execAll (ioRun crashLog crashOps)).execAll
      [.write 0 (commentLine ['f'] "Warning: b".toList), .write 1 (commentLine ['f'] "Warning: b".toList)]).MayContain 1 c) :
    fileText ["# {f}: a".toList, "#1:x".toList, "  7".toList] <+: c := by
  have h := C205_crash crashLog ⟨crashLog.world, fun _ => 0⟩ rfl
    (by intro i hi; show 0 = ((if i = 1 then ([] : List Text) else []) : List Text).length; split_ifs <;> rfl)
    ⟨by decide, by decide, by decide⟩ (by decide) crashOps [.warn ['f'] ['b']]
    (by intro op hop fn h; subst h; simp [crashOps] at hop)
    (by intro k hk; match k, hk with | 0, _ => trivial | 1, _ => trivial)
    [.write 0 (commentLine ['f'] "Warning: b".toList), .write 1 (commentLine ['f'] "Warning: b".toList)]
    ⟨[.flush 1], rfl⟩ 1 (by decide) (by decide) c hc
  exact h.1

example : noFiles.Ok ∧ 0 < noFiles.next ∧ (⟨noFiles, fun _ => 0⟩ : Disk).Synced ∧ noFiles.lookup "run.log" = none
    ∧ ∀ e ∈ [Event.message ['f'] ['a'], .record [['x']] [.leaf 2 ['7']] false] ++ [.record [['x']] [.leaf 2 ['8']] false],
        e.Ok (fun _ _ => "#1:x".toList) (fun _ v => ' ' :: ' ' :: (v.map textOf).flatten) := by
  refine ⟨⟨by decide, by decide, by decide⟩, by decide, fun _ _ => rfl, by decide, ?_⟩
  intro e he
  simp only [List.cons_append, List.nil_append, List.mem_cons, List.not_mem_nil, or_false] at he
  rcases he with rfl | rfl | rfl
  · trivial
  · exact ⟨rfl, rfl, rfl⟩
  · exact ⟨rfl, rfl, rfl⟩

/-! ## C206: lines that waited for a file -/

/-- **C206, the part that does not hold.**  A comment is logged while there is no log file; then a log file is set.  `set_logfile` prints the comment to the file and returns
without flushing it: if the process dies then, the file may be found empty. -/
theorem C206_backlog_partial (W : World) (D : Disk) (hD : D.world = W) (fn : String) (hfn : W.lookup fn = none) (a b : ℤ) (c t : Text) :
    (run (create W .none a b) [.pr c t, .setLogfile (.plain fn)]).world.data W.next = [commentLine c t]
      ∧ (D.execAll (ioRun (create W .none a b) [.pr c t, .setLogfile (.plain fn)])).MayContain W.next [] := by
  have h1 : (run (create W .none a b) [.pr c t, .setLogfile (.plain fn)]).world.data W.next = [commentLine c t] := by
    simp [run, step, create, setLogfile, pr, openLogfile, print, World.openW, hfn, replay, World.write]
  refine ⟨h1, ?_, List.nil_prefix⟩
  have hio : ioRun (create W .none a b) [.pr c t, .setLogfile (.plain fn)] = [.openW fn, .write W.next (commentLine c t)] := by
    simp [ioRun, ioStep, ioPr, ioOpen, ioPrint, ioFlush, ioSetLogfile, step, create, setLogfile, pr, openLogfile, print, World.openW, hfn]
  rw [hio]
  have hs : (D.execAll [.openW fn, .write W.next (commentLine c t)]).safe W.next = 0 := by
    simp [execAll_cons, execAll_nil, Disk.exec, World.openW, hD, hfn]
  rw [hs]
  exact List.prefix_refl _

/-- **C206.**  The next line that is logged to the file brings them to disk. -/
theorem C206_next_line (W : World) (D : Disk) (hD : D.world = W) (fn : String) (hfn : W.lookup fn = none) (a b : ℤ) (c t c' t' : Text)
    (x : Text) (hx : (D.execAll (ioRun (create W .none a b) [.pr c t, .setLogfile (.plain fn), .pr c' t'])).MayContain W.next x) :
    x = fileText [commentLine c t, commentLine c' t'] := by
  have h1 : (run (create W .none a b) [.pr c t, .setLogfile (.plain fn), .pr c' t']).world.data W.next = [commentLine c t, commentLine c' t'] := by
    simp [run, step, create, setLogfile, pr, openLogfile, print, World.openW, hfn, replay, World.write]
  have hw := ioRun_world [.pr c t, .setLogfile (.plain fn), .pr c' t'] (create W .none a b) D (by simpa [create, setLogfile] using hD)
  have hio : ioRun (create W .none a b) [.pr c t, .setLogfile (.plain fn), .pr c' t']
      = [.openW fn, .write W.next (commentLine c t)] ++ [.write W.next (commentLine c' t')] ++ [.flush W.next] := by
    simp [ioRun, ioStep, ioPr, ioOpen, ioPrint, ioFlush, ioSetLogfile, step, create, setLogfile, pr, openLogfile, print, World.openW, hfn, replay]
  obtain ⟨l1, l2⟩ := hx
  rw [hw, h1] at l1 l2
  have hs : (D.execAll (ioRun (create W .none a b) [.pr c t, .setLogfile (.plain fn), .pr c' t'])).safe W.next = 2 := by
    have : ((D.execAll (ioRun (create W .none a b) [.pr c t, .setLogfile (.plain fn), .pr c' t'])).world.data W.next).length = 2 := by
      rw [hw, h1]; rfl
    rw [← this, hio, execAll_append]
    simp [execAll_cons, execAll_nil, Disk.exec]
  rw [hs] at l1
  exact (l1.eq_of_length (le_antisymm l1.length_le l2.length_le)).symm ▸ rfl

example : noFiles.lookup "run.log" = none := by decide

end CM.Log
