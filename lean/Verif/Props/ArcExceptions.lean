import Verif.Model.ArcExceptions
import Verif.Spec.ArcExceptions

/-!
# Property C208 (arc_exceptions.hpp): exceptions with a place
-/
namespace Verif.ArcExceptions
open Verif

theorem digit_ne_space {n : Nat} {c : Char} (h : c ∈ Nat.toDigits 10 n) : c ≠ ' ' := by
  intro e
  have := Nat.isDigit_of_mem_toDigits (by omega) (by omega) h
  rw [e] at this
  exact absurd this (by decide)

/-- The part after the last space. -/
theorem last_part (a d : List Char) (h : ∀ c ∈ d, c ≠ ' ') :
    ((a ++ ' ' :: d).reverse.takeWhile (fun c => c != ' ')).reverse = d := by
  rw [List.reverse_append, List.reverse_cons, List.append_assoc,
    List.takeWhile_append_of_pos (by
      intro c hc
      rw [List.mem_reverse] at hc
      simpa using h c hc)]
  simp

theorem place_shape (file : List Char) (line : Nat) (message : List Char) :
    place file line message = (message ++ [':', ' '] ++ file ++ [':']) ++ ' ' :: Nat.toDigits 10 line := by
  simp [place]

/-- **C208.** `throw_arc_exception` never returns. What it throws has the type that was asked for, and its text begins with
the message, goes on with the name of the file, and ends with the number of the line, which can be read back from it. -/
theorem C208_text (at' : Position) (type : Exc) (message : List Char) :
    ∃ what, throwArcException at' type message = .error ⟨type, what⟩ ∧
      (∃ between, what = message ++ between ∧ ∃ rest, between = [':', ' '] ++ at'.file ++ rest) ∧
      lineOf what = at'.line := by
  refine ⟨place at'.file at'.line message, rfl, ⟨[':', ' '] ++ at'.file ++ ([':', ' '] ++ Nat.toDigits 10 at'.line),
    by simp only [place, List.append_assoc], _, rfl⟩, ?_⟩
  unfold lineOf
  rw [place_shape, last_part _ _ fun c hc => digit_ne_space hc,
    Nat.ofDigitChars_toDigits (by omega) (by omega)]

theorem place_inj {f1 f2 m1 m2 : List Char} {l1 l2 : Nat} (h : place f1 l1 m1 = place f2 l2 m2) :
    l1 = l2 ∧ m1 ++ [':', ' '] ++ f1 = m2 ++ [':', ' '] ++ f2 := by
  have hl : l1 = l2 := by
    have e : lineOf (place f1 l1 m1) = lineOf (place f2 l2 m2) := by rw [h]
    unfold lineOf at e
    rw [place_shape, place_shape, last_part _ _ fun c hc => digit_ne_space hc,
      last_part _ _ fun c hc => digit_ne_space hc, Nat.ofDigitChars_toDigits (by omega) (by omega),
      Nat.ofDigitChars_toDigits (by omega) (by omega)] at e
    exact e
  subst hl
  refine ⟨rfl, ?_⟩
  unfold place at h
  exact List.append_cancel_right (List.append_cancel_right h)

/-- **C208.** Two throws give the same exception exactly when they are of the same type, in lines with the same number,
and their messages and files are the same put together. So the same message from two places gives different texts, and so
do two messages from one place. -/
theorem C208_different (p1 p2 : Position) (t1 t2 : Exc) (m1 m2 : List Char) :
    (throwArcException p1 t1 m1 = throwArcException p2 t2 m2 ↔
      t1 = t2 ∧ p1.line = p2.line ∧ m1 ++ [':', ' '] ++ p1.file = m2 ++ [':', ' '] ++ p2.file) ∧
    (throwArcException p1 t1 m1 = throwArcException p2 t2 m1 → p1 = p2) ∧
    (throwArcException p1 t1 m1 = throwArcException p1 t2 m2 → m1 = m2) := by
  have key : ∀ (p1 p2 : Position) (t1 t2 : Exc) (m1 m2 : List Char),
      throwArcException p1 t1 m1 = throwArcException p2 t2 m2 →
      t1 = t2 ∧ p1.line = p2.line ∧ m1 ++ [':', ' '] ++ p1.file = m2 ++ [':', ' '] ++ p2.file := by
    intro p1 p2 t1 t2 m1 m2 h
    have h' : Except.error (⟨t1, place p1.file p1.line m1⟩ : Thrown) =
      (Except.error (⟨t2, place p2.file p2.line m2⟩ : Thrown) : Except Thrown Unit) := h
    injection h' with h'
    injection h' with a b
    exact ⟨a, place_inj b⟩
  refine ⟨⟨key _ _ _ _ _ _, ?_⟩, fun h => ?_, fun h => ?_⟩
  · rintro ⟨rfl, h2, h3⟩
    show Except.error (⟨t1, place p1.file p1.line m1⟩ : Thrown) =
      (Except.error (⟨t1, place p2.file p2.line m2⟩ : Thrown) : Except Thrown Unit)
    unfold place
    rw [h2, h3]
  · obtain ⟨-, h2, h3⟩ := key _ _ _ _ _ _ h
    cases p1; cases p2
    simp only [List.append_assoc, List.append_cancel_left_eq] at h2 h3
    rw [h2, h3]
  · obtain ⟨-, -, h3⟩ := key _ _ _ _ _ _ h
    exact List.append_cancel_right (List.append_cancel_right h3)

/-- **C208.** Message and file cannot be told apart from the text alone: a message that contains a colon and a space reads
like a shorter message from another file. -/
theorem C208_ambiguous : ∃ (p1 p2 : Position) (m1 m2 : List Char), p1 ≠ p2 ∧ m1 ≠ m2 ∧
    throwArcException p1 .runtimeError m1 = throwArcException p2 .runtimeError m2 :=
  ⟨⟨"b: c".toList, 7⟩, ⟨"c".toList, 7⟩, "a".toList, "a: b".toList, by decide, by decide, by rfl⟩

/-- The text of an exception. -/
example : throwArcException ⟨"x.cpp".toList, 26⟩ .invalidArgument "too small".toList =
    .error ⟨.invalidArgument, "too small: x.cpp: 26".toList⟩ := by rfl

end Verif.ArcExceptions
