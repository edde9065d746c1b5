/-
Python runtime pieces used by the model: exceptions, insertion-ordered dictionaries,
a state-and-exception monad, and the iteration order of python sets.
-/

namespace SurfaceSim

/-- Exception classes raised by the code in /repo (error messages are not kept). -/
inductive Err where
  | valueError
  | keyError
  | indexError
  | typeError
  | notImplemented
  | assertionError
  | zeroDivisionError
  | runtimeError
  deriving DecidableEq, Repr

/-- A python `dict` with its insertion order. -/
abbrev Dict (κ : Type) (α : Type) := List (κ × α)

namespace Dict
variable {κ α : Type} [DecidableEq κ]

/-- `d.get(k)`: python dictionary lookup. -/
def get? : Dict κ α → κ → Option α
  | [], _ => none
  | (k', v) :: d, k => if k' = k then some v else get? d k

/-- `d[k] = v`: overwrites in place, a new key goes to the end. -/
def set : Dict κ α → κ → α → Dict κ α
  | [], k, v => [(k, v)]
  | (k', v') :: d, k, v => if k' = k then (k', v) :: d else (k', v') :: set d k v

/-- `d.keys()` in insertion order. -/
def keys (d : Dict κ α) : List κ := d.map Prod.fst

/-- `d.update(e)`. -/
def update (d e : Dict κ α) : Dict κ α := e.foldl (fun acc kv => set acc kv.1 kv.2) d

/-- `d.pop(k, None)` as far as the remaining dictionary is concerned. -/
def erase : Dict κ α → κ → Dict κ α
  | [], _ => []
  | (k', v) :: d, k => if k' = k then d else (k', v) :: erase d k

/-- `d[k]` raising `KeyError`. -/
def getE (d : Dict κ α) (k : κ) : Except Err α :=
  match d.get? k with
  | some v => .ok v
  | none => .error .keyError

/-- `k in d`. -/
def has (d : Dict κ α) (k : κ) : Bool := (d.get? k).isSome

end Dict

/-- A python computation on a mutable object of type `σ`: it returns or raises, and in
both cases leaves a new state behind. -/
def PyM (σ α : Type) := σ → Except Err α × σ

namespace PyM
variable {σ α β : Type}

/-- Return a value. -/
protected def pure (a : α) : PyM σ α := fun s => (.ok a, s)

/-- Sequencing; an exception stops the computation, keeping the state reached. -/
protected def bind (m : PyM σ α) (f : α → PyM σ β) : PyM σ β := fun s =>
  match m s with
  | (.ok a, s') => f a s'
  | (.error e, s') => (.error e, s')

instance : Monad (PyM σ) where
  pure := PyM.pure
  bind := PyM.bind

/-- `raise`. -/
def raise (e : Err) : PyM σ α := fun s => (.error e, s)

/-- Read the object. -/
def get : PyM σ σ := fun s => (.ok s, s)

/-- Write the object. -/
def put (s : σ) : PyM σ Unit := fun _ => (.ok (), s)

/-- A pure computation that may raise. -/
def ofExcept (e : Except Err α) : PyM σ α := fun s => (e, s)

/-- `for a in l: f(a)`. -/
def forEach {γ : Type} : List γ → (γ → PyM σ Unit) → PyM σ Unit
  | [], _ => PyM.pure ()
  | a :: l, f => PyM.bind (f a) fun _ => forEach l f

/-- `[f(a) for a in l]`. -/
def mapList {γ : Type} : List γ → (γ → PyM σ β) → PyM σ (List β)
  | [], _ => PyM.pure []
  | a :: l, f => PyM.bind (f a) fun b => PyM.bind (mapList l f) fun bs => PyM.pure (b :: bs)

end PyM

/-- `[f(a) for a in l]` for pure functions that may raise. -/
def mapExcept {α β : Type} : List α → (α → Except Err β) → Except Err (List β)
  | [], _ => .ok []
  | a :: l, f =>
    match f a with
    | .error e => .error e
    | .ok b =>
      match mapExcept l f with
      | .error e => .error e
      | .ok bs => .ok (b :: bs)

/-- Iteration order of python `set`s.  CPython's order depends on hashes and insertion
history, so it is an arbitrary rearrangement of the (duplicate free) elements. -/
structure SetOrder where
  /-- the order in which a set with these elements is iterated -/
  ord : {α : Type} → List α → List α
  /-- iteration visits exactly the elements -/
  perm : ∀ {α : Type} (l : List α), List.Perm (ord l) l

/-- Insertion order, one possible iteration order. -/
def SetOrder.insertion : SetOrder := ⟨fun l => l, fun _ => List.Perm.refl _⟩

/-- Python's `l[i]` for a list and an arbitrary integer index. -/
def pyIndex {α : Type} (l : List α) (i : Int) : Except Err α :=
  let j : Int := if i < 0 then i + l.length else i
  if j < 0 then .error .indexError
  else
    match l[j.toNat]? with
    | some a => .ok a
    | none => .error .indexError

end SurfaceSim
