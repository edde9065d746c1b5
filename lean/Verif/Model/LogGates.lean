/-
Model of `surface_sim/log_gates/*.py`.

Simplifications.  Coordinates are exact: `np.cos(np.arctan(..))` and the other floats of `reflection` are replaced by
the exact reflection, which is rounded to 5 decimals as in the code.  networkx's search for monomorphisms is a
parameter (`Matcher`) of which only the definition of a monomorphism is used.
-/
import Verif.Model.Blocks
import Mathlib.Algebra.Order.Floor.Defs
import Mathlib.Data.Rat.Floor

namespace SurfaceSim
namespace LogGates
open Blocks (dataQubits ancQubits stabQubits symmDiff firstLogical cnotLabel)

/-- A vector of two coordinates. -/
abbrev Vec := Rat × Rat

/-- `layout.set_param` as a statement. -/
def store (key q : String) (v : Val) : PyM Layout Unit := fun l =>
  match l.setParam key q v with
  | .ok l' => (.ok (), l')
  | .error e => (.error e, l)

/-- The checks of `set_trans_s` and `set_trans_h` (rot_surface_code_css.py 32-47, unrot_surface_code_css.py 32-47,
273-288), with the code and `distance_z - distance_x` that are required. -/
def checkFold (l : Layout) (code : String) (extra : Int) (q : String) : Except Err Unit :=
  if l.code ≠ code then .error .valueError
  else if l.distanceZ ≠ l.distanceX + extra then .error .valueError
  else
    match dataQubits l with
    | .error e => .error e
    | .ok data =>
      if q ∉ data then .error .valueError
      else
        match l.getQubits [] with
        | .error e => .error e
        | .ok qs =>
          match l.getCoords qs with
          | .error e => .error e
          | .ok cs =>
            if cs.isEmpty ∨ cs.any (fun c => c.length ≠ 2) then .error .valueError
            else if l.logQubits.length ≠ 1 then .error .valueError
            else .ok ()

/-- `[(d, q) for d, q in neighbors.items() if q in stabs][0]` (rot_surface_code_css.py 57-58). -/
def firstAnc (nbrs : Dict String (Option String)) (stabs : List String) : Except Err (String × String) :=
  pyIndex (nbrs.filterMap fun kv => match kv.2 with
    | some q => if q ∈ stabs then some (kv.1, q) else none
    | none => none) 0

/-- `np.array(layout.param("coords", q))`. -/
def vecOf (l : Layout) (q : String) : Except Err Vec :=
  match l.param "coords" q with
  | .error e => .error e
  | .ok (.coords [r, c]) => .ok (r, c)
  | .ok _ => .error .typeError

/-- The ancilla next to the corner, the coordinates of the corner and the vector from there to the next data qubit
(rot_surface_code_css.py 55-65, unrot_surface_code_css.py 55-64, 296-305). -/
def corner (l : Layout) (q : String) (xs zs : List String) : Except Err (String × Vec × Vec) :=
  match l.param "neighbors" q with
  | .error e => .error e
  | .ok (.nbrs nbrs) =>
    match firstAnc nbrs xs with
    | .error e => .error e
    | .ok (_, ancX) =>
      match firstAnc nbrs zs with
      | .error e => .error e
      | .ok (dirZ, _) =>
        match pyIndex (l.getNeighbors [ancX] (some dirZ)) 0 with
        | .error e => .error e
        | .ok next =>
          match vecOf l next with
          | .error e => .error e
          | .ok v =>
            match vecOf l q with
            | .error e => .error e
            | .ok p => .ok (ancX, p, v - p)
  | .ok _ => .error .typeError

/-- `coords_to_label_dict` (rot_surface_code_css.py 68-77, unrot_surface_code_css.py 67-71, 308-312); `f` is the rounding. -/
def labelDict (f : Vec → Vec) (l : Layout) : Except Err (Dict Vec String) :=
  match mapExcept l.graph.nodes Layout.gridCoord with
  | .error e => .error e
  | .ok cs => .ok ((cs.zip l.graph.nodes.keys).foldl (fun acc cq => Dict.set acc (f cq.1) cq.2) [])

/-- The `while` loop that folds the code (rot_surface_code_css.py 79-99).  `fuel` bounds the number of iterations;
a loop that never ends in python raises here. -/
def czSteps (lab : Vec → Option String) (jh jv : Vec) :
    Nat → Vec → Nat → Dict (Option String) (Option String) → Except Err (Dict (Option String) (Option String))
  | 0, _, _, _ => .error .runtimeError
  | fuel + 1, top, k, cz =>
    match lab top with
    | none => .ok cz
    | some _ =>
      match lab (top + (k : Rat) • jv) with
      | none => czSteps lab jh jv fuel (top + (jv + jh)) 0 cz
      | some q1 =>
        let q2 := lab (top + ((k + 1 : Nat) : Rat) • jh)
        czSteps lab jh jv fuel top (k + 1) ((cz.set q2 (some q1)).set (some q1) q2)

/-- The `while` loop that places the S gates (rot_surface_code_css.py 104-112), with the coordinates after it. -/
def sSteps (lab : Vec → Option String) (step : Vec) :
    Nat → Vec → Dict (Option String) String → Except Err (Dict (Option String) String × Vec)
  | 0, _, _ => .error .runtimeError
  | fuel + 1, c, s =>
    match lab c with
    | none => .ok (s, c)
    | some q => sSteps lab step fuel (c + step) (s.set (some q) "S")

/-- Enough iterations for the loops above if the jumps are not zero. -/
def fuel (l : Layout) : Nat := (l.graph.nodes.length + 2) * (l.graph.nodes.length + 2)

/-- The S gates of the rotated code (rot_surface_code_css.py 101-115). -/
def rotSGates (l : Layout) (lab : Vec → Option String) (data : List String) (q : String) (p jh jv : Vec) :
    Except Err (Dict (Option String) String) :=
  let s0 : Dict (Option String) String := (data.foldl (fun acc d => Dict.set acc (some d) "I") []).set (some q) "S"
  match sSteps lab (jh + jv) (fuel l) (p + jh) s0 with
  | .error e => .error e
  | .ok (s, c) => .ok (s.set (lab (c - jh - jv)) "S_DAG")

/-- Inserts a string in a sorted list. -/
def insertStr (s : String) : List String → List String
  | [] => [s]
  | t :: ts => if t < s then t :: insertStr s ts else s :: t :: ts

/-- `sorted(l)` for strings. -/
def sortStr : List String → List String
  | [] => []
  | s :: ss => insertStr s (sortStr ss)

/-- `tuple(sorted(s))` for a set with `None`: comparing `None` raises `TypeError`, and the tuple `(None,)` is not a
key of the dictionary in which it is looked up. -/
def sortOpt (s : List (Option String)) : Except Err (List String) :=
  if none ∈ s then (if s.length = 1 then .error .keyError else .error .typeError)
  else .ok (sortStr (s.filterMap id))

/-- The Z operators that an X at each qubit of a stabilizer is multiplied with (rot_surface_code_css.py 140-145,
unrot_surface_code_css.py 108-113).  At the qubits with a local gate, `withPair` says whether the pair counts. -/
def zProduct (cz : Dict (Option String) (Option String)) (s : Dict (Option String) String) (withPair : Bool) :
    List String → List (Option String) → Except Err (List (Option String))
  | [], z => .ok z
  | d :: ds, z =>
    match s.getE (some d) with
    | .error e => .error e
    | .ok g =>
      if g ≠ "I" ∧ ¬ withPair then zProduct cz s withPair ds (symmDiff z [some d])
      else
        match cz.getE (some d) with
        | .error e => .error e
        | .ok p => zProduct cz s withPair ds (symmDiff z (if g = "I" then [p] else Layout.dedup [some d, p]))

/-- The loop computing the new generators (rot_surface_code_css.py 134-150, unrot_surface_code_css.py 106-118);
`skip` is the ancilla at the corner of the rotated code. -/
def newStabS (l : Layout) (zstabs : Dict (List String) String) (cz : Dict (Option String) (Option String))
    (s : Dict (Option String) String) (withPair : Bool) (skip : Option String) :
    List String → Dict String (List String) → Except Err (Dict String (List String))
  | [], acc => .ok acc
  | x :: xs, acc =>
    if some x = skip then newStabS l zstabs cz s withPair skip xs (acc.set x [x])
    else
      match zProduct cz s withPair (sortStr (l.getNeighbors [x] none)) [] with
      | .error e => .error e
      | .ok z =>
        match sortOpt z with
        | .error e => .error e
        | .ok key =>
          match zstabs.getE key with
          | .error e => .error e
          | .ok az => newStabS l zstabs cz s withPair skip xs ((acc.set x [x, az]).set az [az])

/-- `zstab_to_anc` (rot_surface_code_css.py 129-132, unrot_surface_code_css.py 102-105). -/
def zstabDict (l : Layout) (zs : List String) : Dict (List String) String :=
  zs.foldl (fun acc z => Dict.set acc (sortStr (l.getNeighbors [z] none)) z) []

/-- A label or `None` as a value. -/
def atomOf : Option String → Atom
  | none => .none
  | some q => .str q

/-- `for qubit in data_qubits: layout.set_param(gate_label, qubit, {key: ..., "local": ...})`
(rot_surface_code_css.py 118-121, unrot_surface_code_css.py 91-94, 324-325). -/
def storeData (label key : String) (cz : Dict (Option String) (Option String)) (s : Dict (Option String) String)
    (data : List String) : PyM Layout Unit :=
  PyM.forEach data fun d => do
    let p ← PyM.ofExcept (cz.getE (some d))
    let g ← PyM.ofExcept (s.getE (some d))
    store label d (.gate [(key, atomOf p), ("local", .str g)])

/-- `for anc_qubit in anc_qubits: layout.set_param(gate_label, anc_qubit, {"new_stab_gen": ...})`
(rot_surface_code_css.py 153-156, unrot_surface_code_css.py 121-124, 337-340). -/
def storeAnc (label : String) (new : Dict String (List String)) (anc : List String) : PyM Layout Unit :=
  PyM.forEach anc fun a => do
    let g ← PyM.ofExcept (new.getE a)
    store label a (.gate [("new_stab_gen", .strs g)])

/-- `set_trans_s` for rotated codes (rot_surface_code_css.py 9-158). -/
def rotSetTransS (q : String) : PyM Layout Unit := do
  let l ← PyM.get
  PyM.ofExcept (checkFold l "rotated_surface_code" 1 q)
  let data ← PyM.ofExcept (dataQubits l)
  let anc ← PyM.ofExcept (ancQubits l)
  let xs ← PyM.ofExcept (stabQubits l "x_type")
  let zs ← PyM.ofExcept (stabQubits l "z_type")
  let lab ← PyM.ofExcept (firstLogical l)
  let c ← PyM.ofExcept (corner l q xs zs)
  let dict ← PyM.ofExcept (labelDict id l)
  let p := c.2.1
  let jh := c.2.2
  let jv : Vec := (jh.2, -jh.1)
  let cz ← PyM.ofExcept (czSteps dict.get? jh jv (fuel l) p 0 [])
  let s ← PyM.ofExcept (rotSGates l dict.get? data q p jh jv)
  storeData ("trans-s_" ++ lab) "cz" cz s data
  let new ← PyM.ofExcept (newStabS l (zstabDict l zs) cz s true (some c.1) xs [])
  storeAnc ("trans-s_" ++ lab) new anc

/-- Rounding to the next integer, halves to even. -/
def roundEven (x : Rat) : Int :=
  let f := ⌊x⌋
  if x - f < 1 / 2 then f
  else if 1 / 2 < x - f then f + 1
  else if f % 2 = 0 then f else f + 1

/-- `np.round(x, decimals=5)`. -/
def round5 (v : Vec) : Vec := ((roundEven (v.1 * 100000) : Rat) / 100000, (roundEven (v.2 * 100000) : Rat) / 100000)

/-- `reflection` (unrot_surface_code_css.py 129-149), with exact numbers: with `u = x - point`, the reflected point is
`point + 2 (u·v)/(v·v) v - u`.  For the zero vector the code computes `nan`, which is not found in dictionaries. -/
def reflection (x point v : Vec) : Vec :=
  let u := x - point
  let t := 2 * (u.1 * v.1 + u.2 * v.2) / (v.1 * v.1 + v.2 * v.2)
  (point.1 + t * v.1 - u.1, point.2 + t * v.2 - u.2)

/-- The label of the qubit at the reflected position (unrot_surface_code_css.py 77-79, 318-320, 331-333). -/
def reflected (l : Layout) (dict : Dict Vec String) (p v : Vec) (q : String) : Except Err String :=
  match vecOf l q with
  | .error e => .error e
  | .ok c => if v = 0 then .error .keyError else dict.getE (round5 (reflection c p v))

/-- The pairs of data qubits given by the reflection (unrot_surface_code_css.py 74-80, 315-321). -/
def foldPairs (l : Layout) (dict : Dict Vec String) (p v : Vec) :
    List String → Dict (Option String) (Option String) → Except Err (Dict (Option String) (Option String))
  | [], acc => .ok acc
  | d :: ds, acc =>
    match reflected l dict p v d with
    | .error e => .error e
    | .ok d' => foldPairs l dict p v ds (acc.set (some d) (if d' ≠ d then some d' else none))

/-- The S gates on the diagonal (unrot_surface_code_css.py 84-88), for the numbers in the list. -/
def diagonalGates (dict : Dict Vec String) (p v : Vec) :
    List Nat → Dict (Option String) String → Except Err (Dict (Option String) String)
  | [], acc => .ok acc
  | k :: ks, acc =>
    match dict.getE (round5 (p + (k : Rat) • v)) with
    | .error e => .error e
    | .ok d => diagonalGates dict p v ks (acc.set (some d) (if k % 2 = 0 then "S" else "S_DAG"))

/-- `set_trans_s` for unrotated codes (unrot_surface_code_css.py 7-126). -/
def unrotSetTransS (q : String) : PyM Layout Unit := do
  let l ← PyM.get
  PyM.ofExcept (checkFold l "unrotated_surface_code" 0 q)
  let data ← PyM.ofExcept (dataQubits l)
  let anc ← PyM.ofExcept (ancQubits l)
  let xs ← PyM.ofExcept (stabQubits l "x_type")
  let zs ← PyM.ofExcept (stabQubits l "z_type")
  let lab ← PyM.ofExcept (firstLogical l)
  let c ← PyM.ofExcept (corner l q xs zs)
  let dict ← PyM.ofExcept (labelDict round5 l)
  let cz ← PyM.ofExcept (foldPairs l dict c.2.1 c.2.2 data [])
  let s ← PyM.ofExcept (diagonalGates dict c.2.1 c.2.2 (List.range (2 * l.distanceZ - 1).toNat)
    (data.foldl (fun acc d => Dict.set acc (some d) "I") []))
  storeData ("trans-s_" ++ lab) "cz" cz s data
  let new ← PyM.ofExcept (newStabS l (zstabDict l zs) cz s false none xs [])
  storeAnc ("trans-s_" ++ lab) new anc

/-- The new generators of `set_trans_h` (unrot_surface_code_css.py 328-334). -/
def newStabH (l : Layout) (dict : Dict Vec String) (p v : Vec) :
    List String → Dict String (List String) → Except Err (Dict String (List String))
  | [], acc => .ok acc
  | x :: xs, acc =>
    match reflected l dict p v x with
    | .error e => .error e
    | .ok y => newStabH l dict p v xs (acc.set x [y])

/-- `set_trans_h` (unrot_surface_code_css.py 249-342). -/
def unrotSetTransH (q : String) : PyM Layout Unit := do
  let l ← PyM.get
  PyM.ofExcept (checkFold l "unrotated_surface_code" 0 q)
  let data ← PyM.ofExcept (dataQubits l)
  let anc ← PyM.ofExcept (ancQubits l)
  let xs ← PyM.ofExcept (stabQubits l "x_type")
  let zs ← PyM.ofExcept (stabQubits l "z_type")
  let lab ← PyM.ofExcept (firstLogical l)
  let c ← PyM.ofExcept (corner l q xs zs)
  let dict ← PyM.ofExcept (labelDict round5 l)
  let sw ← PyM.ofExcept (foldPairs l dict c.2.1 c.2.2 data [])
  storeData ("trans-h_" ++ lab) "swap" sw (data.foldl (fun acc d => Dict.set acc (some d) "H") []) data
  let new ← PyM.ofExcept (newStabH l dict c.2.1 c.2.2 anc [])
  storeAnc ("trans-h_" ++ lab) new anc

/-! ### transversal CNOT -/

/-- A dictionary from nodes of `g₁` to nodes of `g₂` that is a monomorphism as reported by
`DiGraphMatcher(g₁, g₂).subgraph_monomorphisms_iter()`: one to one onto the nodes of `g₂`, whose edges are edges of
`g₁`. -/
structure Mono (g₁ g₂ : Graph) (m : Dict String String) : Prop where
  keys : m.keys.Nodup
  dom : ∀ a ∈ m.keys, a ∈ g₁.nodes.keys
  onto : (m.map Prod.snd).Perm g₂.nodes.keys
  edges : ∀ a b a' b', (a, b) ∈ m → (a', b') ∈ m → ((g₂.adj.get? b).getD []).has b' = true →
    ((g₁.adj.get? a).getD []).has a' = true

/-- networkx's search: it finds exactly the monomorphisms, in some order. -/
structure Matcher where
  /-- `list(DiGraphMatcher(g₁, g₂).subgraph_monomorphisms_iter())` -/
  all : Graph → Graph → List (Dict String String)
  sound : ∀ g₁ g₂, ∀ m ∈ all g₁ g₂, Mono g₁ g₂ m
  complete : ∀ g₁ g₂ m, Mono g₁ g₂ m → ∃ m' ∈ all g₁ g₂, m'.Perm m

/-- `coords2 - coords1` (rot_surface_code_css.py 211-213). -/
def offset (lc lt : Layout) (ct : String × String) : Except Err (List Rat) :=
  match lc.getCoords [ct.1] with
  | .error e => .error e
  | .ok cs =>
    match lt.getCoords [ct.2] with
    | .error e => .error e
    | .ok ts =>
      match pyIndex cs 0 with
      | .error e => .error e
      | .ok c =>
        match pyIndex ts 0 with
        | .error e => .error e
        | .ok t => if c.length = t.length then .ok (List.zipWith (· - ·) t c) else .error .valueError

/-- `np.allclose(a, b)` with the default tolerances. -/
def allclose (a b : List Rat) : Except Err Bool :=
  if a.length = b.length then
    .ok ((List.zip a b).all fun ab => decide (|ab.1 - ab.2| ≤ 1 / 100000000 + 1 / 100000 * |ab.2|))
  else .error .valueError

/-- The inner loop (rot_surface_code_css.py 214-220). -/
def parallel (lc lt : Layout) (base : List Rat) : Dict String String → Except Err Bool
  | [] => .ok true
  | ct :: m =>
    match offset lc lt ct with
    | .error e => .error e
    | .ok v =>
      match allclose v base with
      | .error e => .error e
      | .ok false => .ok false
      | .ok true => parallel lc lt base m

/-- The loop choosing the monomorphism (rot_surface_code_css.py 206-223); the last one that fits stays.
`next(iter({}.items()))` raises `StopIteration`. -/
def chooseMap (lc lt : Layout) :
    List (Dict String String) → Option (Dict String String) → Except Err (Option (Dict String String))
  | [], acc => .ok acc
  | m :: ms, acc =>
    match m with
    | [] => .error .runtimeError
    | ct :: rest =>
      match offset lc lt ct with
      | .error e => .error e
      | .ok base =>
        match parallel lc lt base (ct :: rest) with
        | .error e => .error e
        | .ok b => chooseMap lc lt ms (if b then some (ct :: rest) else acc)

/-- A statement on the layout of the control. -/
def onC {α : Type} (m : PyM Layout α) : PyM (Layout × Layout) α := fun s =>
  match m s.1 with
  | (r, l) => (r, (l, s.2))

/-- A statement on the layout of the target. -/
def onT {α : Type} (m : PyM Layout α) : PyM (Layout × Layout) α := fun s =>
  match m s.2 with
  | (r, l) => (r, (s.1, l))

/-- `layout.set_param(gate_label, qubit, {"cnot": mapping[qubit]})` for the data qubits
(rot_surface_code_css.py 233-236). -/
def storeCnot (label : String) (mp : Dict String String) (data : List String) : PyM Layout Unit :=
  PyM.forEach data fun d => do
    let p ← PyM.ofExcept (mp.getE d)
    store label d (.gate [("cnot", .str p)])

/-- `anc_to_new_stab[anc] = [anc]` for all in a list. -/
def keepStabs (anc : List String) (acc : Dict String (List String)) : Dict String (List String) :=
  anc.foldl (fun acc a => Dict.set acc a [a]) acc

/-- `anc_to_new_stab[anc] = [anc, mapping[anc]]` for all in a list. -/
def addStabs (mp : Dict String String) : List String → Dict String (List String) → Except Err (Dict String (List String))
  | [], acc => .ok acc
  | a :: as, acc =>
    match mp.getE a with
    | .error e => .error e
    | .ok b => addStabs mp as (acc.set a [a, b])

/-- The part of `set_trans_cnot` that stores the gate, for the map `ct` from the control to the target
(rot_surface_code_css.py 225-255 and unrot_surface_code_css.py 216-246). -/
def storeTransCnot (o : SetOrder) (label : String) (lc lt : Layout) (ct : Dict String String) : PyM (Layout × Layout) Unit := do
  let tc : Dict String String := ct.foldl (fun acc kv => Dict.set acc kv.2 kv.1) []
  let dataC ← PyM.ofExcept (dataQubits lc)
  let dataT ← PyM.ofExcept (dataQubits lt)
  onC (storeCnot label ct (o.ord (Blocks.setOf dataC)))
  onT (storeCnot label tc (o.ord (Blocks.setOf dataT)))
  let zc ← PyM.ofExcept (stabQubits lc "z_type")
  let xc ← PyM.ofExcept (stabQubits lc "x_type")
  let new1 ← PyM.ofExcept (addStabs ct xc (keepStabs zc []))
  let zt ← PyM.ofExcept (stabQubits lt "z_type")
  let new2 ← PyM.ofExcept (addStabs tc zt new1)
  let xt ← PyM.ofExcept (stabQubits lt "x_type")
  let new := keepStabs xt new2
  let ancC ← PyM.ofExcept (ancQubits lc)
  let ancT ← PyM.ofExcept (ancQubits lt)
  onC (storeAnc label new ancC)
  onT (storeAnc label new ancT)

/-- `set_trans_cnot` (rot_surface_code_css.py 161-255 and unrot_surface_code_css.py 152-246, which differ in the
required code).  `if not gm.is_isomorphic` tests a method and is never taken. -/
def setTransCnot (code : String) (mt : Matcher) (o : SetOrder) : PyM (Layout × Layout) Unit := do
  let s ← PyM.get
  let lc := s.1
  let lt := s.2
  if lc.code ≠ code ∨ lt.code ≠ code then PyM.raise .valueError
  else if lc.distanceX ≠ lt.distanceX ∨ lc.distanceZ ≠ lt.distanceZ then PyM.raise .valueError
  else
    PyM.ofExcept (Layout.checkOverlap [lc, lt])
    let label ← PyM.ofExcept (cnotLabel lc lt)
    let ms := mt.all lc.graph lt.graph
    if ms.isEmpty then PyM.raise .valueError
    else
      let r ← PyM.ofExcept (chooseMap lc lt ms none)
      match r with
      | none => PyM.raise .valueError
      | some ct => storeTransCnot o label lc lt ct

end LogGates
end SurfaceSim
