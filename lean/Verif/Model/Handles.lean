import Verif.Model.Basic

/-!
# Model of `swiftsimio/_handle_provider.py` (file handles and who closes them)

Handles are numbered in the order in which they are opened. A handle is truthy exactly while it is open (h5py). Reads
through a handle are not modelled.
-/

namespace Verif.Handles
open Verif

/-- Who opened a handle: the user, an object through its `handle` property, or a `with object.open_file()` block. -/
inductive Owner
  | user
  | provider (i : Nat)
  | temp (i : Nat)
  deriving DecidableEq, Repr

/-- A handle and whether it is open. -/
structure Handle where
  file : Nat
  owner : Owner
  isOpen : Bool
  deriving DecidableEq, Repr

/-- A `HandleProvider` object, _handle_provider.py:28-33. -/
structure Provider where
  file : Nat
  handle : Option Nat
  manager : Bool
  deriving DecidableEq, Repr

/-- All handles and all objects. -/
structure World where
  handles : List Handle
  providers : List Provider
  deriving DecidableEq, Repr

mutual
/-- What a program can do. Blocks carry the operations executed inside. -/
inductive Op
  | userOpen (file : Nat)
  | userClose (h : Nat)
  | mk (file : Nat) (handle : Option Nat)
  | getHandle (i : Nat)
  | closeIfManager (i : Nat)
  | withFile (i : Nat) (body : Ops)
  | attempt (body : Ops)
  | raise
/-- A sequence of operations. -/
inductive Ops
  | nil
  | cons (op : Op) (rest : Ops)
end

/-- `bool(handle)`. -/
def World.truthy (w : World) (h : Option Nat) : Bool :=
  match h with
  | none => false
  | some n => match w.handles[n]? with
    | some x => x.isOpen
    | none => false

/-- `h5py.File(filename, "r")`. -/
def World.openNew (w : World) (file : Nat) (o : Owner) : World × Nat :=
  ({ w with handles := w.handles ++ [{ file := file, owner := o, isOpen := true }] }, w.handles.length)

/-- `handle.close()`: closing twice is harmless. -/
def World.close (w : World) (h : Nat) : World :=
  { w with handles := w.handles.modify h (fun x => { x with isOpen := false }) }

/-- `HandleProvider.__init__`, _handle_provider.py:28-33. -/
def World.mkProvider (w : World) (file : Nat) (h : Option Nat) : World :=
  { w with providers := w.providers ++ [{ file := file, handle := h, manager := !w.truthy h }] }

/-- The `handle` property, _handle_provider.py:35-57. -/
def World.getHandle (w : World) (i : Nat) (p : Provider) : World × Option Err :=
  if w.truthy p.handle then (w, none)
  else if p.manager then
    let (w', n) := w.openNew p.file (.provider i)
    ({ w' with providers := w'.providers.set i { p with handle := some n } }, none)
  else (w, some .runtime)

/-- `_close_handle_if_manager`, _handle_provider.py:59-62: `None.close()` raises AttributeError. -/
def World.closeIfManager (w : World) (p : Provider) : World × Option Err :=
  if p.manager then
    match p.handle with
    | some h => (w.close h, none)
    | none => (w, some .attribute)
  else (w, none)

mutual
/-- One operation; the second component is the exception that leaves it. Operations on objects or handles that do not
exist raise NameError in Python; here a key error. -/
def step (w : World) : Op → World × Option Err
  | .userOpen f => ((w.openNew f .user).1, none)
  | .userClose h => if h < w.handles.length then (w.close h, none) else (w, some .key)
  | .mk f h =>
    match h with
    | none => (w.mkProvider f none, none)
    | some n => if n < w.handles.length then (w.mkProvider f (some n), none) else (w, some .key)
  | .getHandle i =>
    match w.providers[i]? with
    | some p => w.getHandle i p
    | none => (w, some .key)
  | .closeIfManager i =>
    match w.providers[i]? with
    | some p => w.closeIfManager p
    | none => (w, some .key)
  -- `open_file`, _handle_provider.py:64-82: the current handle if it is open, else a temporary one closed on exit
  | .withFile i body =>
    match w.providers[i]? with
    | some p =>
      if w.truthy p.handle then run w body
      else
        let r := run (w.openNew p.file (.temp i)).1 body
        (r.1.close w.handles.length, r.2)
    | none => (w, some .key)
  | .attempt body => ((run w body).1, none)
  | .raise => (w, some .runtime)
/-- A sequence stops at the first exception. -/
def run (w : World) : Ops → World × Option Err
  | .nil => (w, none)
  | .cons op rest =>
    match step w op with
    | (w', none) => run w' rest
    | (w', some e) => (w', some e)
end

/-- The empty world. -/
def start : World := { handles := [], providers := [] }

end Verif.Handles
