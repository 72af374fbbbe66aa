import Verif.Model.GeometrySharing

/-!
# Specification: robots whose points are never freed

What the caller should see: vectors of points have numbers and live for ever, robots and pointers only know numbers.
-/
namespace Verif.GeometrySharing
open Verif

/-- Vectors of points by number, robots and pointers. -/
structure Ideal (P C : Type) where
  points : List (List P)
  robots : List (Option (Robot C))
  pointers : List (Option Nat)

variable {P C : Type}

def Ideal.empty : Ideal P C := ⟨[], [], []⟩

/-- The number of the points of link `k` of robot `i`. -/
def Ideal.vector (s : Ideal P C) (i k : Nat) : Out Nat := do
  let r ← robotAt s.robots i
  match r.geometries[k]? with
  | some g => .ok g.2
  | none => .ub

def ideal : Op P C → Ideal P C → Out (Res P C × Ideal P C)
  | .newPoints points, s => .ok (.made s.pointers.length,
      { s with points := s.points ++ [points], pointers := s.pointers ++ [some s.points.length] })
  | .dropPoints h, s =>
    match s.pointers[h]? with
    | some (some _) => .ok (.done, { s with pointers := s.pointers.set h none })
    | _ => .ub
  | .newRobot config geometries, s => do
    let geometries ← pointersAt s.pointers geometries
    .ok (.made s.robots.length, { s with robots := s.robots ++ [some ⟨config, geometries⟩] })
  | .clone i, s => do
    let r ← robotAt s.robots i
    .ok (.made s.robots.length, { s with robots := s.robots ++ [some r] })
  | .delete i, s => do
    let _ ← robotAt s.robots i
    .ok (.done, { s with robots := s.robots.set i none })
  | .setPosition i config, s => do
    let r ← robotAt s.robots i
    .ok (.done, { s with robots := s.robots.set i (some { r with config := config }) })
  | .getPosition i, s => do
    let r ← robotAt s.robots i
    .ok (.position r.config, s)
  | .write i k points, s => do
    let a ← s.vector i k
    .ok (.done, { s with points := s.points.set a points })
  | .read i k, s => do
    let a ← s.vector i k
    .ok (.points (s.points.getD a []), s)

def runIdeal : List (Op P C) → Ideal P C → Out (List (Res P C) × Ideal P C)
  | [], s => .ok ([], s)
  | op :: ops, s => do
    let (r, s) ← ideal op s
    let (rs, s) ← runIdeal ops s
    .ok (r :: rs, s)

/-- A pointer or a robot that is still there refers to the vector. -/
def Referred (robots : List (Option (Robot C))) (pointers : List (Option Nat)) (a : Nat) : Prop :=
  some a ∈ pointers ∨ ∃ r, some r ∈ robots ∧ a ∈ r.geometries.map (·.2)

/-- The operation sets the position of robot `i` or deletes it. -/
def Concerns (i : Nat) : Op P C → Prop
  | .setPosition j _ => j = i
  | .delete j => j = i
  | _ => False

/-- the robot is still there -/
def Alive (w : World P C) (i : Nat) : Prop := ∃ r, w.robots[i]? = some (some r)

/-- the results of a history -/
def results {S : Type} : Out (List (Res P C) × S) → Out (List (Res P C))
  | .ok (rs, _) => .ok rs
  | .throws e => .throws e
  | .abort => .abort
  | .ub => .ub

end Verif.GeometrySharing
