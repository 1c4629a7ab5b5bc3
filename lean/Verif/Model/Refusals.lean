import Verif.Model.Values
import Verif.Model.Subset
import Verif.Model.Writer
import Verif.Model.Names

/-!
# What is left behind by calls that raise (swiftsimio/objects.py, subset_writer.py, snapshot_writer.py)

In-place conversions with units, and the files at the paths of a disk. HDF5 empties a file
that is opened with mode "w", and keeps what was put into it when the block is left by an exception; it refuses to empty a file that is
open (`OSError`, here `runtime`).
-/

namespace Verif.Refusals
open Verif Verif.Cosmo Verif.Names

/-- The argument `units` of a conversion: not given, a unit of the same dimensions by its size, or one of other dimensions. -/
inductive Ask
  | keep
  | unit (u : ℝ)
  | foreign

/-- `self.convert_to_units(units)` of unyt, objects.py:1446-1447 and 1494-1495: the array afterwards and the exception. Units of other
dimensions are refused (`UnitConversionError`, here `value`) before anything is changed. -/
noncomputable def unitsFirst (x : Full) : Ask → Full × Option Err
  | .keep => (x, none)
  | .unit u => (x.inUnits u, none)
  | .foreign => (x, some .value)

/-- What is left of an array whose frame is converted in place. -/
def finish (x : Full) : Except Err Arr → Full × Option Err
  | .ok z => ({ x with arr := z }, none)
  | .error e => (x, some e)

/-- `convert_to_comoving(units)` (`comoving`) and `convert_to_physical(units)`, objects.py:1410-1505. -/
noncomputable def convertTo (comoving : Bool) (q : Ask) (x : Full) : Full × Option Err :=
  match unitsFirst x q with
  | (y, some e) => (y, some e)
  | (y, none) => finish y (if comoving then y.arr.convertToComoving else y.arr.convertToPhysical)

/-- What is at a path: a file of which nothing more is known, a file that was finished, or one whose writing was broken off. -/
inductive Content (A B : Type)
  | old (id : Nat)
  | whole (x : A)
  | broken (y : B)

/-- The files of a disk by path. -/
abbrev Disk (A B : Type) := Str → Option (Content A B)

/-- The disk with something else at one path. -/
def Disk.put {A B : Type} (d : Disk A B) (path : Str) (x : Content A B) : Disk A B := fun p => if p = path then some x else d p

section Subset
open Verif.Mask Verif.Accel

variable {K : Type} [Field K] [LinearOrder K] {m : Nat}

/-- A disk with subsets; of a broken subset the datasets are there that were written before the exception. -/
abbrev SubsetDisk (K : Type) (m : Nat) := Disk (SubsetOut K m) (List ((String × String) × List (Option K)))

/-- The datasets that `_write_datasubset` wrote before it raised, subset_writer.py:349-374. -/
def writtenData (f : File K m) (r : Fin m → List Rng) (size : Fin m → Int) (lay : String × String → Layout) :
    List (String × String) → List ((String × String) × List (Option K))
  | [] => []
  | n :: ns => match writeDataset f r size (lay n) n with
    | .ok v => (n, v) :: writtenData f r size lay ns
    | .error _ => []

/-- What a broken subset holds, subset_writer.py:431-436. -/
def leftover (f : File K m) (s : State m) (names : List (String × String)) (lay : String × String → Layout) :
    List ((String × String) × List (Option K)) :=
  match (toRanges s).rep, forKeys (fun k => maskedCounts f (toRanges s) k) with
  | .ranges r, .ok _ => writtenData f r (toRanges s).size lay names
  | _, _ => []

/-- The disk, the mask and the exception after a call. -/
structure After (K : Type) (m : Nat) where
  disk : SubsetDisk K m
  mask : State m
  err : Option Err

/-- `write_subset(path, mask, allow_unconstrained)`, subset_writer.py:398-436: `own` is the path of the file of the mask, which is open
when the new one is opened. -/
def saveSubset (d : SubsetDisk K m) (own path : Str) (f : File K m) (s : State m) (allow : Bool) (names : List (String × String))
    (lay : String × String → Layout) : After K m :=
  if s.constrained = none ∧ allow = false then ⟨d, s, some .value⟩
  else if path = own then ⟨d, toRanges s, some .runtime⟩
  else match writeBody f s names lay with
    | .ok out => ⟨d.put path (.whole out), toRanges s, none⟩
    | .error e => ⟨d.put path (.broken (leftover f s names lay)), toRanges s, some e⟩

end Subset

/-- `SWIFTSnapshotWriter.write(path)`, snapshot_writer.py:855-898: the disk and the exception. -/
def saveSnapshot {α : Type} (d : Disk (Writer.File α) Unit) (path : Str) (extra : Option (List Nat)) (w : Writer.State α) :
    Disk (Writer.File α) Unit × Option Err :=
  match (Writer.write extra w).opened, (Writer.write extra w).result with
  | false, .error e => (d, some e)
  | false, .ok _ => (d, none)  -- not reachable
  | true, .ok f => (d.put path (.whole f), none)
  | true, .error e => (d.put path (.broken ()), some e)

end Verif.Refusals
