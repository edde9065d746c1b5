/-
Model of `surface_sim/layouts/library/` (rotated and unrotated surface codes).

Simplifications.  The `isinstance` checks are the types; the python counters `ind`, `x_index`,
`z_index` are threaded through recursions over the list of grid positions visited by the loops.
-/
import Verif.Model.Layout

namespace SurfaceSim

/-- A grid position (row, column). -/
abbrev Site := Int × Int

/-- The kind of qubit placed at a grid position. -/
inductive Kind where
  | data
  | x
  | z
  deriving DecidableEq, Repr

namespace LayoutLib

/-- `range(start, stop, step)` for a positive step. -/
def pyRange (start stop step : Int) : List Int :=
  (List.range ((stop - start + step - 1) / step).toNat).map fun (k : Nat) => start + step * k

/-- `is_valid` (library/util.py 19-42). -/
def isValid (row col maxSizeRow maxSizeCol : Int) : Bool :=
  if ¬ (0 ≤ row ∧ row < maxSizeRow) then false
  else if ¬ (0 ≤ col ∧ col < maxSizeCol) then false
  else true

/-- `invert_shift` (library/util.py 1-16). -/
def invertShift (s : Site) : Site := (-s.1, -s.2)

/-- `_check_distance` (library/util.py 45-61). -/
def checkDistance (d : Int) : Except Err Unit := if d < 0 then .error .valueError else .ok ()

/-- The labels given by the loops over the grid: `f"D{index}"` for data qubits and counters for the
ancillas (rot_surface_codes.py 197-249, unrot_surface_codes.py 179-204). -/
def labelSites (dataLabel : Site → String) :
    List (Site × Kind) → Int → Int → List (String × Site × Kind)
  | [], _, _ => []
  | (s, .data) :: rest, xi, zi => (dataLabel s, s, .data) :: labelSites dataLabel rest xi zi
  | (s, .x) :: rest, xi, zi =>
    ("X" ++ Int.repr xi, s, .x) :: labelSites dataLabel rest (xi + 1) zi
  | (s, .z) :: rest, xi, zi =>
    ("Z" ++ Int.repr zi, s, .z) :: labelSites dataLabel rest xi (zi + 1)

/-- `neighbor_data[q][direction] = v` on a `defaultdict(dict)`. -/
def writeNbr (nd : Dict String (Dict String String)) (w : String × String × String) :
    Dict String (Dict String String) :=
  nd.set w.1 (((nd.get? w.1).getD []).set w.2.1 w.2.2)

/-- The assignments to `neighbor_data` for one ancilla (rot_surface_codes.py 230-242 and 260-272,
unrot_surface_codes.py 217-229).  `dirs` lists the shifts with their direction and the direction of
the inverted shift. -/
def nbrWrites (dataLabel : Site → String) (valid : Site → Bool)
    (dirs : List (Site × String × String)) (e : String × Site × Kind) :
    List (String × String × String) :=
  if e.2.2 = .data then []
  else
    dirs.flatMap fun sd =>
      let d : Site := (e.2.1.1 + sd.1.1, e.2.1.2 + sd.1.2)
      if valid d then [(e.1, sd.2.1, dataLabel d), (dataLabel d, sd.2.2, e.1)] else []

/-- `neighbor_data` after the loops. -/
def neighborData (dataLabel : Site → String) (valid : Site → Bool)
    (dirs : List (Site × String × String)) (L : List (String × Site × Kind)) :
    Dict String (Dict String String) :=
  (L.flatMap (nbrWrites dataLabel valid dirs)).foldl writeNbr []

/-- The value of `role`. -/
def roleOf : Kind → Val
  | .data => .str "data"
  | _ => .str "anc"

/-- The value of `stab_type`. -/
def stabOf : Kind → Val
  | .data => .none
  | .x => .str "x_type"
  | .z => .str "z_type"

/-- The dictionary of neighbours of a qubit: `neighbor_data[qubit]` on a defaultdict, with labels
as values. -/
def nbrsOf (nd : Dict String (Dict String String)) (q : String) : Dict String (Option String) :=
  ((nd.get? q).getD []).map fun kv => (kv.1, some kv.2)

/-! ### rotated surface code -/

/-- `get_data_index` (rot_surface_codes.py 9-35). -/
def rotDataIndex (row col colSize startInd : Int) : Int :=
  startInd + (row / 2) * colSize + col / 2

/-- `shift_direction` (rot_surface_codes.py 38-56). -/
def rotDirection (s : Site) : String :=
  (if s.1 > 0 then "north" else "south") ++ "_" ++ (if s.2 > 0 then "east" else "west")

/-- `product((1, -1), repeat=2)` with directions (rot_surface_codes.py 185-186, 236-241). -/
def rotDirs : List (Site × String × String) :=
  [(1, 1), (1, -1), (-1, 1), (-1, -1)].map fun s =>
    (s, rotDirection s, rotDirection (invertShift s))

/-- The grid positions in the order of the loops (rot_surface_codes.py 197-199, 215-216,
245-246). -/
def rotSites (dx dz : Int) : List (Site × Kind) :=
  let colSize := 2 * dz + 1
  let rowSize := 2 * dx + 1
  ((pyRange 1 rowSize 2).flatMap fun r => (pyRange 1 colSize 2).map fun c => ((r, c), Kind.data)) ++
  ((pyRange 0 rowSize 2).flatMap fun r =>
    (pyRange (2 + r % 4) (colSize - 1) 4).map fun c => ((r, c), Kind.x)) ++
  ((pyRange 2 (rowSize - 1) 2).flatMap fun r =>
    (pyRange (r % 4) colSize 4).map fun c => ((r, c), Kind.z))

/-- `add_missing_neighbours` for one qubit (rot_surface_codes.py 59-75); a qubit which is not a key
of `neighbor_data` is skipped. -/
def addMissing (nd : Dict String (Dict String String)) (q : String) : Dict String (Option String) :=
  if nd.has q then
    Layout.diagonals.foldl (fun acc k => if Dict.has acc k then acc else Dict.set acc k none) (nbrsOf nd q)
  else []

/-- The parameters of the generators. -/
structure Args where
  label : String
  initPoint : Rat × Rat
  initData : Int
  initZ : Int
  initX : Int
  initInd : Int
  deriving DecidableEq, Repr

/-- The defaults for the rotated code (rot_surface_codes.py 78-87). -/
def rotDefault : Args := ⟨"L0", (1, 1), 1, 1, 1, 0⟩

/-- The defaults for the unrotated code (unrot_surface_codes.py 69-78). -/
def unrotDefault : Args := ⟨"L0", (0, 0), 1, 1, 1, 0⟩

/-- The label of the data qubit at a grid position (rot_surface_codes.py 179-181, 200-203). -/
def rotDataLabel (a : Args) (dz : Int) (s : Site) : String :=
  "D" ++ Int.repr (rotDataIndex s.1 s.2 dz a.initData)

/-- The qubits of the rotated code with their grid position. -/
def rotEntries (a : Args) (dx dz : Int) : List (String × Site × Kind) :=
  labelSites (rotDataLabel a dz) (rotSites dx dz) a.initX a.initZ

/-- `valid_coord` (rot_surface_codes.py 182). -/
def rotValid (dx dz : Int) (s : Site) : Bool := isValid s.1 s.2 (2 * dx + 1) (2 * dz + 1)

/-- `freq_group` (rot_surface_codes.py 190, 198, 225, 255). -/
def rotFreq (s : Site) : Kind → Val
  | .data => if (s.1 / 2) % 2 = 0 then .str "low" else .str "high"
  | _ => .str "mid"

/-- The dictionary of one qubit of the rotated code (rot_surface_codes.py 202-209, 219-226,
249-256, 276-278). -/
def rotInfo (a : Args) (nd : Dict String (Dict String String)) (e : String × Site × Kind) (k : Nat) :
    QubitInfo :=
  { qubit := some e.1
    attrs :=
      [("role", roleOf e.2.2),
       ("coords", .coords [(e.2.1.1 : Rat) + (a.initPoint.1 - 1), (e.2.1.2 : Rat) + (a.initPoint.2 - 1)]),
       ("freq_group", rotFreq e.2.1 e.2.2),
       ("stab_type", stabOf e.2.2),
       ("ind", .int (a.initInd + k)),
       ("neighbors", .nbrs (addMissing nd e.1))] }

/-- The setup dictionary built by `rot_surface_code_rectangle` (rot_surface_codes.py 148-280);
`freq_order` is ignored by `Layout`. -/
def rotSetup (a : Args) (dx dz : Int) : LayoutSetup :=
  let nd := neighborData (rotDataLabel a dz) (rotValid dx dz) rotDirs (rotEntries a dx dz)
  { name := some ("Rotated dx-" ++ Int.repr dx ++ " dz-" ++ Int.repr dz ++ " surface code layout.")
    code := some "rotated_surface_code"
    logQubits := some [a.label]
    distance := if dx = dz then some dz else none
    distanceZ := some dz
    distanceX := some dx
    logZ := some [(a.label, (List.range dz.toNat).map fun (i : Nat) => "D" ++ Int.repr (i + a.initData))]
    logX := some [(a.label, (List.range dx.toNat).map fun (i : Nat) => "D" ++ Int.repr (i * dz + a.initData))]
    description := none
    interactionOrder := some
      [("x_type", ["north_east", "north_west", "south_east", "south_west"]),
       ("z_type", ["north_east", "south_east", "north_west", "south_west"])]
    layout := some ((rotEntries a dx dz).zipIdx.map fun ek => rotInfo a nd ek.1 ek.2) }

/-- `rot_surface_code_rectangle` (rot_surface_codes.py 78-282). -/
def rotSurfaceCodeRectangle (dx dz : Int) (a : Args) : Except Err Layout :=
  match checkDistance dx with
  | .error e => .error e
  | .ok _ =>
    match checkDistance dz with
    | .error e => .error e
    | .ok _ => Layout.init (rotSetup a dx dz)

/-- `rot_surface_code` (rot_surface_codes.py 285-331). -/
def rotSurfaceCode (d : Int) (a : Args) : Except Err Layout := rotSurfaceCodeRectangle d d a

/-! ### unrotated surface code -/

/-- `get_data_index` (unrot_surface_codes.py 9-39). -/
def unrotDataIndex (row col colSize startInd : Int) : Int :=
  let rc := if row % 2 = 1 then (row - 1, col + colSize) else (row, col)
  startInd + (rc.1 / 2) * colSize + rc.2 / 2

/-- `shift_direction` (unrot_surface_codes.py 42-66). -/
def unrotDirection (s : Site) : Except Err String :=
  if s = (0, 1) then .ok "north"
  else if s = (0, -1) then .ok "south"
  else if s = (1, 0) then .ok "east"
  else if s = (-1, 0) then .ok "west"
  else .error .valueError

/-- A shift with its direction and the direction of the inverted shift
(unrot_surface_codes.py 224-228). -/
def unrotDir (s : Site) : Except Err (Site × String × String) :=
  match unrotDirection s with
  | .error e => .error e
  | .ok d =>
    match unrotDirection (invertShift s) with
    | .error e => .error e
    | .ok d' => .ok (s, d, d')

/-- `nbr_shifts` (unrot_surface_codes.py 173). -/
def unrotShifts : List Site := [(0, 1), (0, -1), (1, 0), (-1, 0)]

/-- The kind of qubit at a grid position (unrot_surface_codes.py 183, 199-200). -/
def unrotKind (s : Site) : Kind :=
  if (s.1 + s.2) % 2 = 0 then .data else if s.1 % 2 = 0 then .x else .z

/-- The grid positions in the order of the loops (unrot_surface_codes.py 181-182). -/
def unrotSites (dx dz : Int) : List (Site × Kind) :=
  (pyRange 0 (2 * dx - 1) 1).flatMap fun r =>
    (pyRange 0 (2 * dz - 1) 1).map fun c => ((r, c), unrotKind (r, c))

/-- The label of the data qubit at a grid position (unrot_surface_codes.py 168-170, 186-189). -/
def unrotDataLabel (a : Args) (dz : Int) (s : Site) : String :=
  "D" ++ Int.repr (unrotDataIndex s.1 s.2 (2 * dz - 1) a.initData)

/-- The qubits of the unrotated code with their grid position. -/
def unrotEntries (a : Args) (dx dz : Int) : List (String × Site × Kind) :=
  labelSites (unrotDataLabel a dz) (unrotSites dx dz) a.initX a.initZ

/-- `valid_coord` (unrot_surface_codes.py 171). -/
def unrotValid (dx dz : Int) (s : Site) : Bool := isValid s.1 s.2 (2 * dx - 1) (2 * dz - 1)

/-- The dictionary of one qubit of the unrotated code (unrot_surface_codes.py 188-194, 206-212,
231-233). -/
def unrotInfo (a : Args) (nd : Dict String (Dict String String)) (e : String × Site × Kind) (k : Nat) :
    QubitInfo :=
  { qubit := some e.1
    attrs :=
      [("role", roleOf e.2.2),
       ("coords", .coords [(e.2.1.1 : Rat) + a.initPoint.1, (e.2.1.2 : Rat) + a.initPoint.2]),
       ("stab_type", stabOf e.2.2),
       ("ind", .int (a.initInd + k)),
       ("neighbors", .nbrs (nbrsOf nd e.1))] }

/-- The setup dictionary built by `unrot_surface_code_rectangle` (unrot_surface_codes.py 140-235). -/
def unrotSetup (a : Args) (dx dz : Int) (dirs : List (Site × String × String)) : LayoutSetup :=
  let nd := neighborData (unrotDataLabel a dz) (unrotValid dx dz) dirs (unrotEntries a dx dz)
  { name := some ("Unrotated dx-" ++ Int.repr dx ++ " dz-" ++ Int.repr dz ++ " surface code layout.")
    code := some "unrotated_surface_code"
    logQubits := some [a.label]
    distance := if dx = dz then some dz else none
    distanceZ := some dz
    distanceX := some dx
    logZ := some [(a.label, (List.range dz.toNat).map fun (i : Nat) => "D" ++ Int.repr (i + a.initData))]
    logX := some [(a.label, (List.range dx.toNat).map fun (i : Nat) =>
      "D" ++ Int.repr (i * (2 * dz - 1) + a.initData))]
    description := none
    interactionOrder := some
      [("x_type", ["north", "west", "east", "south"]),
       ("z_type", ["north", "east", "west", "south"])]
    layout := some ((unrotEntries a dx dz).zipIdx.map fun ek => unrotInfo a nd ek.1 ek.2) }

/-- `unrot_surface_code_rectangle` (unrot_surface_codes.py 69-237). -/
def unrotSurfaceCodeRectangle (dx dz : Int) (a : Args) : Except Err Layout :=
  match checkDistance dx with
  | .error e => .error e
  | .ok _ =>
    match checkDistance dz with
    | .error e => .error e
    | .ok _ =>
      match mapExcept unrotShifts unrotDir with
      | .error e => .error e
      | .ok dirs => Layout.init (unrotSetup a dx dz dirs)

/-- `unrot_surface_code` (unrot_surface_codes.py 240-286). -/
def unrotSurfaceCode (d : Int) (a : Args) : Except Err Layout := unrotSurfaceCodeRectangle d d a

end LayoutLib
end SurfaceSim
