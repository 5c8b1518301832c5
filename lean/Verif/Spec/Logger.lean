import Verif.Model.Logger
/-!
# Specification of the log

Only the vocabulary of the theorems in `Props/Logger`.
-/
namespace CM.Log

/-- Where lines go: the attached file, or the buffer. -/
def sink (S : State) : List Text :=
  match S.log.logfile with
  | some i => S.world.data i
  | none => S.log.buffer

/-- A message or a record; a record carries its header line and its own line. -/
inductive Event where
  | message (caller text : Text)
  | record (hdr : List Text) (vals : List Val) (force : Bool)

/-- The call that makes an event. -/
def Event.op : Event → Op
  | .message c t => .pr c t
  | .record h v f => .st h v f

/-- Records that can be rendered, with their two lines. -/
def Event.Ok (head line : List Text → List Val → Text) : Event → Prop
  | .message _ _ => True
  | .record h v _ => h.length = v.length ∧ headerLine h v = .ok (head h v) ∧ recordLine v = .ok (line h v)

/-- Is it a record? -/
def Event.isRecord : Event → Bool
  | .message _ _ => false
  | .record _ _ _ => true

/-- Number of records in a list of events. -/
def records (evs : List Event) : ℕ := evs.countP Event.isRecord

/-- Must event `k` be printed?  Messages always; records when forced or when their number (from one) is a multiple of `outevery`. -/
def Printed (outevery : ℤ) (evs : List Event) (k : ℕ) : Prop :=
  match evs[k]? with
  | some (.record _ _ force) => force = true ∨ outevery ≤ 1 ∨ outevery ∣ (records (evs.take (k + 1)) : ℤ)
  | _ => True

/-- Number of records printed before event `k`. -/
noncomputable def printedBefore (outevery : ℤ) (evs : List Event) (k : ℕ) : ℕ := by
  classical
  exact ((List.range k).filter fun j => (evs[j]?.map Event.isRecord = some true) ∧ Printed outevery evs j).length

/-- The lines of event `k`: a message is one line; a record that has to be printed is one line, with the header before it if the number of
records printed before is a multiple of `sepevery`. -/
noncomputable def lines (head line : List Text → List Val → Text) (outevery sepevery : ℤ) (evs : List Event) (k : ℕ) : List Text := by
  classical
  exact match evs[k]? with
  | some (.message c t) => [commentLine c t]
  | some (.record h v _) =>
    if Printed outevery evs k then
      (if sepevery ≤ 1 ∨ sepevery ∣ (printedBefore outevery evs k : ℤ) then [head h v] else []) ++ [line h v]
    else []
  | none => []

/-- A text that survives being read back: not empty, no blanks, no `#`. -/
def Word (s : Text) : Prop := s ≠ [] ∧ ∀ c ∈ s, blank c = false ∧ c ≠ '#'

/-- A scalar, or a vector of scalars with at least one component. -/
def Val.Flat : Val → Prop
  | .leaf _ _ => True
  | .vec l => l ≠ [] ∧ ∀ v ∈ l, match v with
    | .leaf _ _ => True
    | .vec _ => False

/-- The columns of a value: width and text of every component. -/
def Val.columns : Val → List (ℕ × Text)
  | .leaf w t => [(w, t)]
  | .vec l => l.flatMap fun v => match v with
    | .leaf w t => [(w, t)]
    | .vec _ => []

/-- The rows a reader should find: the texts of the printed records, in order. -/
noncomputable def rows (outevery : ℤ) (evs : List Event) : List (List Text) := by
  classical
  exact (List.range evs.length).flatMap fun k =>
    match evs[k]? with
    | some (Event.record _ v _) => if Printed outevery evs k then [(v.flatMap Val.columns).map Prod.snd] else []
    | _ => []

/-- Number of components. -/
def Val.size : Val → ℕ
  | .leaf _ _ => 1
  | .vec l => l.length

/-- Files as an operating system has them: names are not repeated, file numbers are not repeated, and are in use; standard output is number `0`
and has no name. -/
def World.Ok (W : World) : Prop :=
  (W.files.map Prod.fst).Nodup ∧ (W.files.map Prod.snd).Nodup ∧ ∀ p ∈ W.files, 0 < p.2 ∧ p.2 < W.next

end CM.Log
