import Verif.Lemma.Cache2
import Verif.Prop.Populate
/-!
A concrete environment for the cache, used to show that the hypotheses of the theorems can be met and to give
counterexamples.  Tables hold the payload text of each row.  Files are written row by row, and as with CSV a file that
ends after a complete row reads as a shorter table.
-/

namespace Trappy
open Py

/-- each character marked with a plus, and a full stop at the end -/
def encS (s : Str) : Str := s.flatMap (fun c => ['+', c]) ++ ['.']

def decS : Str → Option (Str × Str)
  | '.' :: r => some ([], r)
  | '+' :: c :: r => (decS r).map fun x => (c :: x.1, x.2)
  | _ => none

theorem decS_enc (s r : Str) : decS (encS s ++ r) = some (s, r) := by
  induction s with
  | nil => simp [encS, decS]
  | cons c s ih =>
    simp only [encS, List.flatMap_cons, List.cons_append, List.nil_append, decS] at *
    rw [ih]; rfl

def encO : Option Str → Str
  | none => ['N']
  | some s => 'S' :: encS s

def decO : Str → Option (Option Str × Str)
  | 'N' :: r => some (none, r)
  | 'S' :: r => (decS r).map fun x => (some x.1, x.2)
  | _ => none

theorem decO_enc (s : Option Str) (r : Str) : decO (encO s ++ r) = some (s, r) := by
  cases s with
  | none => rfl
  | some s => simp [encO, decO, decS_enc]

def encD : Dict Str → Str
  | [] => ['.']
  | (k, v) :: d => '+' :: (encS k ++ encS v ++ encD d)

def decD : Nat → Str → Option (Dict Str)
  | 0, _ => none
  | n + 1, s => match s with
    | '.' :: _ => some []
    | '+' :: r => match decS r with
      | none => none
      | some (k, r) => match decS r with
        | none => none
        | some (v, r) => (decD n r).map fun d => (k, v) :: d
    | _ => none

theorem decD_enc (d : Dict Str) (n : Nat) (h : d.length < n) : decD n (encD d) = some d := by
  induction d generalizing n with
  | nil => cases n with
    | zero => omega
    | succ n => rfl
  | cons x d ih =>
    obtain ⟨k, v⟩ := x
    cases n with
    | zero => simp at h
    | succ n =>
      simp only [encD, decD, List.append_assoc, decS_enc]
      rw [ih n (by simpa using h)]
      rfl

theorem encD_length (d : Dict Str) : d.length < (encD d).length := by
  induction d with
  | nil => simp [encD]
  | cons x d ih => simp [encD]; omega

theorem natVal_natStr (n : Nat) : natVal (natStr n) = n := by
  rw [natVal_eq]; unfold natStr; exact Nat.ofDigitChars_toDigits (by decide) (by decide)

def exDump (m : Meta) : Str :=
  encO m.md5sum ++ (encO (m.basetime.map natStr) ++ (encO (m.endtime.map natStr) ++
    match m.header with | none => ['N'] | some d => 'S' :: encD d))

def exLoad (s : Str) : Option Meta :=
  match decO s with
  | none => none
  | some (md5, r) => match decO r with
    | none => none
    | some (b, r) => match decO r with
      | none => none
      | some (e, r) => match r with
        | 'N' :: _ => some ⟨md5, b.map natVal, e.map natVal, none⟩
        | 'S' :: r => (decD r.length r).map fun d => ⟨md5, b.map natVal, e.map natVal, some d⟩
        | _ => none

theorem exLoad_dump (m : Meta) : exLoad (exDump m) = some m := by
  obtain ⟨a, b, c, d⟩ := m
  have hb : (b.map natStr).map natVal = b := by cases b <;> simp [natVal_natStr]
  have hc : (c.map natStr).map natVal = c := by cases c <;> simp [natVal_natStr]
  cases d with
  | none => simp [exDump, exLoad, decO_enc, hb, hc]
  | some d => simp [exDump, exLoad, decO_enc, hb, hc, decD_enc d _ (encD_length d)]

def exToCsv (t : Table Str) : Str := t.flatMap fun r => encS (natStr r.1) ++ encS r.2

def exRows : Nat → Str → Table Str
  | 0, _ => []
  | n + 1, s => match decS s with
    | none => []
    | some (t, r) => match decS r with
      | none => []
      | some (v, r) => (natVal t, v) :: exRows n r

theorem exRows_enc (t : Table Str) (n : Nat) (h : t.length ≤ n) : exRows n (exToCsv t) = t := by
  induction t generalizing n with
  | nil => cases n <;> rfl
  | cons x t ih =>
    cases n with
    | zero => simp at h
    | succ n =>
      simp only [exToCsv, List.flatMap_cons, exRows, List.append_assoc, decS_enc, natVal_natStr]
      have := ih n (by simpa using h)
      rw [exToCsv] at this
      rw [this]

theorem exToCsv_length (t : Table Str) : t.length ≤ (exToCsv t).length := by
  induction t with
  | nil => simp
  | cons x t ih => simp only [exToCsv, List.flatMap_cons, List.length_append, List.length_cons] at *; simp [encS]; omega

/-- finalising puts a mark in front of every payload -/
def exEnv : Env Str where
  md5 lines := lines.flatten
  dumpMeta := exDump
  loadMeta := exLoad
  toCsv := exToCsv
  readCsv s := some (exRows s.length s)
  create _ _ rs := some (rs.map fun r => (r.time, r.data))
  finalize _ t := t.map fun r => (r.1, '*' :: r.2)

theorem exEnv_faithful : exEnv.Faithful where
  json := exLoad_dump
  csv t := congrArg some (exRows_enc t _ (exToCsv_length t))
  create_nil _ _ := rfl
  finalize_nil _ := rfl

theorem decS_append {s : Str} {x : Str × Str} (h : decS s = some x) (e : Str) : decS (s ++ e) = some (x.1, x.2 ++ e) := by
  induction s using decS.induct generalizing x with
  | case1 r => simp only [decS, Option.some.injEq] at h; subst h; rfl
  | case2 c r ih =>
    simp only [decS] at h
    obtain ⟨y, hy, rfl⟩ := Option.map_eq_some_iff.mp h
    simp only [List.cons_append, decS, ih hy]; rfl
  | case3 t h1 h2 => simp [decS] at h

theorem decO_append {s : Str} {x : Option Str × Str} (h : decO s = some x) (e : Str) : decO (s ++ e) = some (x.1, x.2 ++ e) := by
  unfold decO at h
  split at h
  · simp only [Option.some.injEq] at h; subst h; rfl
  · obtain ⟨y, hy, rfl⟩ := Option.map_eq_some_iff.mp h
    simp only [List.cons_append, decO, decS_append hy]; rfl
  · simp at h

theorem decD_prefix (d : Dict Str) : ∀ (n : Nat) (s e : Str) (d' : Dict Str), decD n s = some d' → s ++ e = encD d → e = [] := by
  induction d with
  | nil =>
    intro n s e d' h he
    cases n with
    | zero => simp [decD] at h
    | succ n =>
      cases s with
      | nil => simp [decD] at h
      | cons a s => simp [encD] at he; exact he.2.2
  | cons x d ih =>
    obtain ⟨k, v⟩ := x
    intro n s e d' h he
    cases n with
    | zero => simp [decD] at h
    | succ n =>
      cases s with
      | nil => simp [decD] at h
      | cons a s =>
        simp only [encD, List.cons_append, List.cons.injEq, List.append_assoc] at he
        obtain ⟨rfl, he⟩ := he
        simp only [decD] at h
        split at h
        · simp at h
        · rename_i k' r hk
          have h1 := decS_append hk e
          rw [he, decS_enc] at h1
          simp only [Option.some.injEq, Prod.mk.injEq] at h1
          split at h
          · simp at h
          · rename_i v' r' hv
            have h2 := decS_append hv e
            rw [← h1.2, decS_enc] at h2
            simp only [Option.some.injEq, Prod.mk.injEq] at h2
            obtain ⟨y, hy, _⟩ := Option.map_eq_some_iff.mp h
            exact ih n r' e y hy h2.2.symm

/-- as with JSON objects, a metadata file that is cut off cannot be read -/
theorem exLoad_prefix (m : Meta) (s : Str) (h : s <+: exDump m) (hne : s ≠ exDump m) : exLoad s = none := by
  obtain ⟨e, he⟩ := h
  cases hl : exLoad s with
  | none => rfl
  | some m' =>
    exfalso
    apply hne
    suffices e = [] by rw [← he, this, List.append_nil]
    unfold exLoad at hl
    split at hl
    · simp at hl
    · rename_i a r1 h1
      have e1 := decO_append h1 e
      rw [he, exDump, decO_enc] at e1
      simp only [Option.some.injEq, Prod.mk.injEq] at e1
      split at hl
      · simp at hl
      · rename_i b r2 h2
        have e2 := decO_append h2 e
        rw [← e1.2, decO_enc] at e2
        simp only [Option.some.injEq, Prod.mk.injEq] at e2
        split at hl
        · simp at hl
        · rename_i c r3 h3
          have e3 := decO_append h3 e
          rw [← e2.2, decO_enc] at e3
          simp only [Option.some.injEq, Prod.mk.injEq] at e3
          have e4 := e3.2
          split at hl
          · cases hd : m.header with
            | none => rw [hd] at e4; simp at e4; exact e4.2
            | some d => rw [hd] at e4; simp at e4
          · rename_i r4
            cases hd : m.header with
            | none => rw [hd] at e4; simp at e4
            | some d =>
              rw [hd] at e4
              simp only [List.cons_append, List.cons.injEq, true_and] at e4
              obtain ⟨y, hy, _⟩ := Option.map_eq_some_iff.mp hl
              exact decD_prefix d _ _ _ y hy e4.symm
          · simp at hl

theorem exToCsv_rows (t : Table Str) (r : Nat × Str) : exToCsv t <+: exToCsv (t ++ [r]) := by
  simp [exToCsv]

end Trappy
