import Verif.Model.Res

/-!
# Object lifetimes

The Python objects of the package and their reference counts: `DataStructure`, `SACF`, `Correlator`.
A `Correlator` holds a raw C++ pointer to its `DataStructure` (`sacf/include/Correlator.h:65`,
`Correlator.cpp:34`); the `DataStructure` is destroyed together with its Python object.

Simplifications: references held by anything else (variables, containers, frames) are counted
together in `ext`; addresses are never reused, so that a dangling pointer is always visible;
`sacf.data` is only ever assigned a `DataStructure` or `None`.
-/

namespace Sacf.Mem

/-- The three kinds of object. -/
inductive Obj where
  /-- a `DataStructure` -/
  | ds
  /-- a `SACF`; its attribute `data`, `sacf/sacf.py:33-41` -/
  | sacf (data : Option Nat)
  /-- a `Correlator`: its raw pointer and its patients (pybind11 `internals.patients[nurse]`) -/
  | corr (ptr : Nat) (patients : List Nat)
deriving DecidableEq

/-- the references an object owns -/
def Obj.kids : Obj → List Nat
  | .ds => []
  | .sacf d => d.toList
  | .corr _ p => p

structure Cell where
  obj : Obj
  /-- `ob_refcnt` -/
  rc : Nat
deriving DecidableEq

structure Heap where
  /-- `none`: not allocated, or deallocated -/
  cell : Nat → Option Cell
  /-- references held by the program -/
  ext : Nat → Nat
  /-- the next unused identity -/
  next : Nat

def Heap.empty : Heap := ⟨fun _ => none, fun _ => 0, 0⟩

def Heap.set (h : Heap) (x : Nat) (c : Option Cell) : Heap :=
  { h with cell := fun y => if y = x then c else h.cell y }

def Heap.addExt (h : Heap) (x : Nat) : Heap :=
  { h with ext := fun y => if y = x then h.ext y + 1 else h.ext y }

def Heap.subExt (h : Heap) (x : Nat) : Heap :=
  { h with ext := fun y => if y = x then h.ext y - 1 else h.ext y }

/-- a fresh object with reference count 1 -/
def Heap.alloc (h : Heap) (o : Obj) : Heap :=
  { h.set h.next (some ⟨o, 1⟩) with next := h.next + 1 }

/-- `Py_INCREF` -/
def Heap.incref (h : Heap) (x : Nat) : Res Heap :=
  match h.cell x with
  | some c => .ok (h.set x (some { c with rc := c.rc + 1 }))
  | none => .ub

/-- `Py_DECREF` of an object without references of its own (a `DataStructure`) -/
def Heap.decrefLeaf (h : Heap) (x : Nat) : Res Heap :=
  match h.cell x with
  | some c => .ok (h.set x (if c.rc ≤ 1 then none else some { c with rc := c.rc - 1 }))
  | none => .ub

/-- release a list of leaves: `clear_patients`, `sacf/include/pybind11/include/pybind11/detail/class.h:297-310` -/
def Heap.releaseAll (h : Heap) : List Nat → Res Heap
  | [] => .ok h
  | x :: l => (h.decrefLeaf x).bind fun h => h.releaseAll l

/-- `Py_DECREF`: at zero the object is destroyed and what it owns is released
(`pybind11_object_dealloc`, `class.h:346-358`; instance dictionary of a `SACF`). -/
def Heap.decref (h : Heap) (x : Nat) : Res Heap :=
  match h.cell x with
  | some c =>
    if c.rc ≤ 1 then (h.set x none).releaseAll c.obj.kids
    else .ok (h.set x (some { c with rc := c.rc - 1 }))
  | none => .ub

/-- What a program can do. -/
inductive Op where
  /-- `DataStructure(...)` -/
  | newDS
  /-- `SACF(...)`, `sacf/sacf.py:33-41` -/
  | newSACF
  /-- read `s.data` -/
  | getData (s : Nat)
  /-- assign `s.data` -/
  | setData (s : Nat) (d : Option Nat)
  /-- `Correlator(d)`; `none` is `None` -/
  | newCorr (d : Option Nat)
  /-- `s.autocorrelation(return_correlator=True)`, `sacf/sacf.py:124-137` -/
  | autocorrelation (s : Nat)
  /-- any method of a `Correlator` -/
  | useCorr (c : Nat)
  /-- a second call of `c.__init__(d)`: ignored, `sacf/include/pybind11/include/pybind11/pybind11.h:444-447` -/
  | reinit (c d : Nat)
  /-- take another reference -/
  | dup (x : Nat)
  /-- drop a reference -/
  | drop (x : Nat)
deriving DecidableEq

/-- `Correlator.__init__`: `py::init<DataStructure*>(), py::keep_alive<1, 2>()`,
`sacf/correlator/correlator_bindings.cpp:23`: the patient is referenced before the constructor runs
(`attr.h:446-447`, `class.h:289-295`), then the constructor reads the data
(`Correlator.cpp:33-55`); `None` is passed as a null pointer (`cast.h:642-646`). -/
def Heap.makeCorr (h : Heap) (d : Option Nat) : Res Heap :=
  match d with
  | none => .ub
  | some d =>
    (h.incref d).bind fun h =>
    match h.cell d with
    | some _ => .ok ((h.alloc (.corr d [d])).addExt h.next)
    | none => .ub

/-- One step.  A program can only act on objects it holds; steps on anything else do nothing. -/
def step (h : Heap) : Op → Res Heap
  | .newDS => .ok ((h.alloc .ds).addExt h.next)
  | .newSACF =>
    let h1 := h.alloc .ds
    .ok ((h1.alloc (.sacf (some h.next))).addExt h1.next)
  | .getData s =>
    if h.ext s = 0 then .ok h else
    match h.cell s with
    | some ⟨.sacf (some d), _⟩ => (h.incref d).bind fun h => .ok (h.addExt d)
    | _ => .ok h
  | .setData s d =>
    if h.ext s = 0 then .ok h else
    match h.cell s with
    | some ⟨.sacf old, rc⟩ =>
      match d with
      | none =>
        (match old with
         | some x => (h.set s (some ⟨.sacf none, rc⟩)).decrefLeaf x
         | none => .ok (h.set s (some ⟨.sacf none, rc⟩)))
      | some y =>
        if h.ext y = 0 then .ok h else
        match h.cell y with
        | some ⟨.ds, _⟩ =>
          (h.incref y).bind fun h =>
          (match old with
           | some x => (h.set s (some ⟨.sacf (some y), rc⟩)).decrefLeaf x
           | none => .ok (h.set s (some ⟨.sacf (some y), rc⟩)))
        | _ => .ok h
    | _ => .ok h
  | .newCorr d =>
    match d with
    | none => h.makeCorr none
    | some d =>
      if h.ext d = 0 then .ok h else
      match h.cell d with
      | some ⟨.ds, _⟩ => h.makeCorr (some d)
      | _ => .ok h
  | .autocorrelation s =>
    if h.ext s = 0 then .ok h else
    match h.cell s with
    | some ⟨.sacf d, _⟩ => h.makeCorr d
    | _ => .ok h
  | .useCorr c =>
    if h.ext c = 0 then .ok h else
    match h.cell c with
    | some ⟨.corr p _, _⟩ =>
      (match h.cell p with
       | some _ => .ok h
       | none => .ub)
    | _ => .ok h
  | .reinit _ _ => .ok h
  | .dup x =>
    if h.ext x = 0 then .ok h else (h.incref x).bind fun h => .ok (h.addExt x)
  | .drop x =>
    if h.ext x = 0 then .ok h else (h.subExt x).decref x

/-- a history -/
def run (h : Heap) : List Op → Res Heap
  | [] => .ok h
  | o :: l => (step h o).bind fun h => run h l

end Sacf.Mem
