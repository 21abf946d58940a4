import Verif.Model.Lookup

/-! Property C253: craters, surfaces and regions and Python's own tools. -/

namespace Verif.Lookup

variable {V : Type}

/-! ### Specification -/

/-- A class of craters: it defines neither the two parts nor the special names that Python's tools ask for. -/
def CraterClass (ofClass : String → Option (Value V)) : Prop :=
  ofClass "_fixed" = none ∧ ofClass "_var" = none ∧ ofClass "__setstate__" = none ∧ ofClass "fixed" = none ∧ ofClass "var" = none

/-- Neither part has an attribute called `fixed`, `var` or `__setstate__`. -/
def PlainParts (fixed var : String → Option V) : Prop :=
  ∀ name ∈ ["fixed", "var", "__setstate__"], fixed name = none ∧ var name = none

/-! ### Theorems -/

theorem read_fixed (k : ℕ) (c : String → Option (Value V)) (hc : CraterClass c) (fixed var : String → Option V) :
    read (k + 1) (make c fixed var) "_fixed" = .ok (.part fixed) := by
  simp [read, make, hc.1]

theorem read_var (k : ℕ) (c : String → Option (Value V)) (hc : CraterClass c) (fixed var : String → Option V) :
    read (k + 1) (make c fixed var) "_var" = .ok (.part var) := by
  simp [read, make, hc.2.1]

/-- Reading an attribute of a crater that has been made gives what the class defines, else the value of the fixed part, else that of the variable part, and
otherwise an `AttributeError`; it never recurses without end. -/
theorem C253_read_partial (k : ℕ) (c : String → Option (Value V)) (hc : CraterClass c) (fixed var : String → Option V) (name : String)
    (h1 : name ≠ "_fixed") (h2 : name ≠ "_var") :
    (∀ v, c name = some v → read (k + 2) (make c fixed var) name = .ok v) ∧
    (c name = none → ∀ v, fixed name = some v → read (k + 2) (make c fixed var) name = .ok (.plain v)) ∧
    (c name = none → fixed name = none → ∀ v, var name = some v → read (k + 2) (make c fixed var) name = .ok (.plain v)) ∧
    (c name = none → fixed name = none → var name = none → read (k + 2) (make c fixed var) name = .error .attribute) := by
  have hs : (make c fixed var).stored name = none := by simp [make, h1, h2]
  have hcl : (make c fixed var).ofClass = c := rfl
  refine ⟨?_, ?_, ?_, ?_⟩
  · intro v h
    rw [read, hcl, h]
    rfl
  · intro h v hf
    rw [read, hcl, h, hs, read_fixed k c hc]
    simp [Value.attr, hf]
  · intro h hf v hv
    rw [read, hcl, h, hs, read_fixed k c hc, read_var k c hc]
    simp [Value.attr, hf, hv]
  · intro h hf hv
    rw [read, hcl, h, hs, read_fixed k c hc, read_var k c hc]
    simp [Value.attr, hf, hv]

/-- However many nested calls are allowed, a crater without its parts cannot be asked for a name that its class does not define. -/
theorem read_blank (k : ℕ) (c : String → Option (Value V)) (hc : c "_fixed" = none) (name : String) (h : c name = none) :
    read k ⟨c, fun _ => none⟩ name = .error .recursion := by
  induction k generalizing name with
  | zero => rfl
  | succ k ih => simp [read, h, ih "_fixed" hc]

/-- **C253 fails** for every crater: however many nested calls Python allows, copying it with `copy.copy`, `copy.deepcopy` or `pickle` ends in a
`RecursionError`, because the new object is asked for an attribute before it has its parts. -/
theorem C253_copy_fails (limit : ℕ) (c : String → Option (Value V)) (hc : CraterClass c) (fixed var : String → Option V) :
    copied limit (make c fixed var) = .error .recursion := by
  have h : read limit ⟨c, fun _ => none⟩ "__setstate__" = .error .recursion := read_blank limit c hc.1 _ hc.2.2.1
  simp only [copied, has, make, h]

/-- **C253 fails** for listing, too: `dir(crater)`, which is what completion in a terminal or notebook uses, raises an `AttributeError` for every crater. -/
theorem C253_dir_fails (k : ℕ) (c : String → Option (Value V)) (hc : CraterClass c) (fixed var : String → Option V) (hp : PlainParts fixed var)
    (base : List String) (names : Value V → List String) : listed (k + 2) (make c fixed var) base names = .error .attribute := by
  have h := (C253_read_partial k c hc fixed var "fixed" (by decide) (by decide)).2.2.2 hc.2.2.2.1 (hp "fixed" (by simp)).1 (hp "fixed" (by simp)).2
  simp only [listed, h]

/-- It is the question for a missing name that fails, not copying as such: if the class had a `__setstate__`, copies would be made and have the same attributes. -/
theorem C253_repaired (k : ℕ) (c : String → Option (Value V)) (v : Value V) (h : c "__setstate__" = some v) (fixed var : String → Option V) :
    copied (k + 1) (make c fixed var) = .ok (make c fixed var) := by
  have h' : read (k + 1) ⟨c, fun _ => none⟩ "__setstate__" = .ok v := by simp [read, h]
  simp only [copied, has, make, h']

/-- Mesh data of a surface or region that has been made are found by name, and other names give an `AttributeError`. -/
theorem C253_data_partial (k : ℕ) (part : String) (o : Object V) (data : String → Option V) (hc : o.ofClass part = none)
    (hp : o.stored part = some (.part data)) (name : String) (h : o.ofClass name = none) (hs : o.stored name = none) :
    (∀ v, data name = some v → readData part (k + 2) o name = .ok (.plain v)) ∧
    (data name = none → readData part (k + 2) o name = .error .attribute) := by
  have hr : readData part (k + 1) o part = .ok (.part data) := by simp [readData, hc, hp]
  constructor
  · intro v hv
    rw [readData, h, hs, hr]
    simp [Value.attr, hv]
  · intro hv
    rw [readData, h, hs, hr]
    simp [Value.attr, hv]

/-- **C253 fails** for every surface (`part` is `_uxds`) and every region (`part` is `_surface`), too: copying ends in a `RecursionError`. -/
theorem C253_mesh_copy_fails (limit : ℕ) (part : String) (o : Object V) (hp : o.ofClass part = none) (h : o.ofClass "__setstate__" = none) :
    copiedData part limit o = .error .recursion := by
  have key : ∀ (k : ℕ) (name : String), o.ofClass name = none → readData part k ⟨o.ofClass, fun _ => none⟩ name = .error .recursion := by
    intro k
    induction k with
    | zero => intro _ _; rfl
    | succ k ih => intro name hn; simp [readData, hn, ih part hp]
  simp only [copiedData, key limit _ h]

/-! ### Cases -/

/-- A surface with one mesh variable. -/
example : ∃ o : Object ℕ, readData "_uxds" 1000 o "face_elevation" = .ok (.plain 7) ∧ readData "_uxds" 1000 o "face_colour" = .error .attribute ∧
    copiedData "_uxds" 1000 o = .error .recursion := by
  have h := C253_data_partial 998 "_uxds" (⟨fun _ => none, fun n => if n = "_uxds" then some (.part fun n => if n = "face_elevation" then some 7 else none)
    else none⟩ : Object ℕ) (fun n => if n = "face_elevation" then some 7 else none) rfl rfl
  exact ⟨_, (h "face_elevation" rfl rfl).1 7 rfl, (h "face_colour" rfl rfl).2 rfl, C253_mesh_copy_fails _ _ _ rfl rfl⟩

/-- A crater with a radius, a measured radius and a method `maker`. -/
example : ∃ (c : String → Option (Value ℕ)) (fixed var : String → Option ℕ), CraterClass c ∧ PlainParts fixed var ∧
    c "maker" = some (.plain 0) ∧ read 1000 (make c fixed var) "radius" = .ok (.plain 5) ∧
    read 1000 (make c fixed var) "measured_radius" = .ok (.plain 4) ∧ read 1000 (make c fixed var) "rim" = .error .attribute ∧
    copied 1000 (make c fixed var) = .error .recursion ∧ listed 1000 (make c fixed var) [] (fun _ => []) = .error .attribute := by
  have hc : CraterClass fun n => if n = "maker" then some (Value.plain 0) else none := by simp [CraterClass]
  have hp : PlainParts (fun n => if n = "radius" then some 5 else none) (fun n => if n = "measured_radius" then some 4 else none) := by
    simp [PlainParts]
  have hr := C253_read_partial 998 _ hc (fun n => if n = "radius" then some 5 else none) (fun n => if n = "measured_radius" then some 4 else none)
  exact ⟨_, _, _, hc, hp, rfl, (hr "radius" (by decide) (by decide)).2.1 rfl 5 rfl, (hr "measured_radius" (by decide) (by decide)).2.2.1 rfl rfl 4 rfl,
    (hr "rim" (by decide) (by decide)).2.2.2 rfl rfl rfl, C253_copy_fails _ _ hc _ _, C253_dir_fails 998 _ hc _ _ hp _ _⟩

end Verif.Lookup
