import Verif.Model.Cosmo

/-!
# Model of arrays that share memory (swiftsimio/objects.py, swiftsimio/snapshot_writer.py)

A program holds arrays; an array is a list of cells of one memory together with its own attributes. Slices, `view`, `T` and
`reshape` make an array with the cells of another one, `copy` and the methods that return copies take new cells. The methods
`convert_to_*` write into the cells of the array and change the attributes of this array only. Attributes are copied to new
arrays by `__array_finalize__` and the wrappers of objects.py:1284-1299 and 1377-1408. Arrays hold floating-point numbers
(numpy refuses `/=` on integers). The unit of an array is its size in the base unit of its dimension.
-/

namespace Verif.Memory
open Verif Verif.Cosmo

/-- A `cosmo_array` object: cells, unit, and the attributes of `Cosmo.Arr`. -/
structure Obj where
  cells : List Nat
  unit : ℝ
  comoving : Option Bool
  cf : Option CF
  vt : Bool

/-- The memory, the first cell that was never used, and the arrays in the order in which they were made. -/
structure Heap where
  mem : Nat → ℝ
  next : Nat
  objs : List Obj

/-- The array that an object stands for. -/
def Obj.arr (m : Nat → ℝ) (o : Obj) : Arr := ⟨o.cells.map m, o.comoving, o.cf, o.vt⟩

/-- The object with new attributes. -/
def Obj.relabel (o : Obj) (x : Arr) : Obj := { o with comoving := x.comoving, cf := x.cf, vt := x.vt }

/-- Writing values into cells, one after the other. -/
def write (m : Nat → ℝ) : List Nat → List ℝ → (Nat → ℝ)
  | c :: cs, v :: vs => write (Function.update m c v) cs vs
  | _, _ => m

/-- A new array with cells of its own. -/
def alloc (h : Heap) (u : ℝ) (x : Arr) : Heap :=
  let cells := List.range' h.next x.val.length
  ⟨write h.mem cells x.val, h.next + x.val.length, h.objs ++ [⟨cells, u, x.comoving, x.cf, x.vt⟩]⟩

/-- Storing a converted array in its own cells: `values = self.d; values /= …; self.comoving = …`, objects.py:1451-1456 and
1500-1505. -/
def store (h : Heap) (i : Nat) (o : Obj) (y : Arr) : Heap :=
  { h with mem := write h.mem o.cells y.val, objs := h.objs.set i (o.relabel y) }

/-- `convert_to_comoving` or `convert_to_physical` on an array. -/
noncomputable def frame (c : Bool) (x : Arr) : Except Err Arr := if c then x.convertToComoving else x.convertToPhysical

/-- What a program does with arrays; arrays are named by their number. -/
inductive Cmd
  /-- a new array -/
  | new (u : ℝ) (x : Arr)
  /-- `x[start:stop]`, `x.view()`, `x.T`, `x.reshape(…)`: the elements at these places, in the memory of `x` -/
  | slice (i : Nat) (idx : List Nat)
  /-- `x.copy()`, `x[mask]` -/
  | copy (i : Nat)
  /-- `x.to_comoving()` or `x.to_physical()` -/
  | toFrame (i : Nat) (c : Bool)
  /-- `x.convert_to_comoving()` or `x.convert_to_physical()` -/
  | convert (i : Nat) (c : Bool)
  /-- `x.convert_to_units(…)`: new unit -/
  | units (i : Nat) (u : ℝ)
  /-- `cosmo_array(x, comoving=cm, valid_transform=vt)` -/
  | construct (i : Nat) (cm : Option Bool) (vt : Bool)
  /-- `x[places] = y[places']` one number after the other -/
  | assign (i : Nat) (idx : List Nat) (vals : List ℝ)
  /-- `writer.group.field = x` for a writer at scale factor `a` whose unit has size `u` -/
  | field (i : Nat) (a u : ℝ)

/-- `x.convert_to_units(new)` of unyt: the numbers are multiplied by the ratio of the units, in place. -/
noncomputable def convertUnits (h : Heap) (i : Nat) (o : Obj) (u : ℝ) : Heap :=
  { h with mem := write h.mem o.cells (o.cells.map (fun c => h.mem c * (o.unit / u))), objs := h.objs.set i { o with unit := u } }

/-- `convert_to_*`, objects.py:1410-1505: nothing changes if it raises. -/
noncomputable def convertAt (h : Heap) (i : Nat) (o : Obj) (c : Bool) : Heap × Option Err :=
  match frame c (o.arr h.mem) with
  | .error e => (h, some e)
  | .ok y => (store h i o y, none)

/-- `cosmo_array(x, comoving=cm, valid_transform=vt)`, objects.py:1161-1209: a view of `x` is converted in place. The view
is made in any case; if the call raises it is lost, but the numbers are not restored. -/
noncomputable def constructAt (h : Heap) (o : Obj) (cm : Option Bool) (vt : Bool) : Heap × Option Err :=
  if o.cf.isNone then (h, some .value)
  else
    let made : Heap × Option Err := match cm with
      | none => ({ h with objs := h.objs ++ [o] }, none)
      | some c => convertAt { h with objs := h.objs ++ [o] } h.objs.length o c
    match made with
    | (_, some e) => (h, some e)
    | (g, none) => match g.objs[h.objs.length]? with
      | none => (h, some .index)
      | some v => match Arr.verify { v.arr g.mem with vt := vt } with
        | .error e => ({ g with objs := h.objs }, some e)
        | .ok y => ({ g with objs := h.objs ++ [v.relabel y] }, none)

/-- The setter of a field with dimensions, snapshot_writer.py:396-406: the scale factors are compared, the units and the
frame of the array that was given are converted in place, and this array is kept (not a copy). -/
noncomputable def fieldAt (h : Heap) (i : Nat) (o : Obj) (a u : ℝ) : Heap × Option Err :=
  match o.cf with
  | none => (h, some .attribute)
  | some f =>
    if f.sf ≠ some a then (h, some .assertion)
    else convertAt (convertUnits h i o u) i { o with unit := u } true

/-- One command on an array that exists. -/
noncomputable def execAt (h : Heap) (o : Obj) : Cmd → Heap × Option Err
  | .new u x => (alloc h u x, none)
  | .slice _ idx => ({ h with objs := h.objs ++ [{ o with cells := idx.filterMap (fun k => o.cells[k]?) }] }, none)
  | .copy _ => (alloc h o.unit (o.arr h.mem), none)
  | .toFrame _ c => match if c then (o.arr h.mem).toComoving else (o.arr h.mem).toPhysical with
    | .error e => (h, some e)
    | .ok y => (alloc h o.unit y, none)
  | .convert i c => convertAt h i o c
  | .units i u => (convertUnits h i o u, none)
  | .construct _ cm vt => constructAt h o cm vt
  | .assign _ idx vals => ({ h with mem := write h.mem (idx.filterMap (fun k => o.cells[k]?)) vals }, none)
  | .field i a u => fieldAt h i o a u

/-- The array that a command works on. -/
def Cmd.target : Cmd → Option Nat
  | .new _ _ => none
  | .slice i _ => some i
  | .copy i => some i
  | .toFrame i _ => some i
  | .convert i _ => some i
  | .units i _ => some i
  | .construct i _ _ => some i
  | .assign i _ _ => some i
  | .field i _ _ => some i

/-- One command; naming an array that does not exist is an error of the program. -/
noncomputable def exec (h : Heap) (q : Cmd) : Heap × Option Err :=
  match q with
  | .new u x => (alloc h u x, none)
  | q => match q.target.bind (fun i => h.objs[i]?) with
    | none => (h, some .key)
    | some o => execAt h o q

/-- A program: exceptions are caught and the next command is run. -/
noncomputable def run (h : Heap) : List Cmd → Heap
  | [] => h
  | q :: l => run (exec h q).1 l

end Verif.Memory
