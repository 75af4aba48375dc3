import Verif.Prop.CutExact
import Verif.Prop.Pivots
import Verif.Model.SysfsTable
/-!
# C183: the table of sysfs parameters
-/

namespace Trappy
open Py Re

theorem insertItem_eq (a : Str × Val) (l : List (Str × Val)) (h : a.1 ∉ l.map Prod.fst) :
    insertItem a l = some (insertBy (fun x y => strLt x.1 y.1) a l) := by
  induction l with
  | nil => rfl
  | cons b l ih =>
    simp only [List.map_cons, List.mem_cons, not_or] at h
    have e : itemBelow b a = some (strLt b.1 a.1) := by unfold itemBelow; rw [if_neg (fun e => h.1 e.symm)]
    unfold insertItem insertBy
    rw [e]
    cases strLt b.1 a.1 <;> simp [ih h.2]

theorem sortItems_eq (l : List (Str × Val)) (h : (l.map Prod.fst).Nodup) : sortItems l = some (sortBy (fun x y => strLt x.1 y.1) l) := by
  induction l with
  | nil => rfl
  | cons a l ih =>
    simp only [List.map_cons, List.nodup_cons] at h
    unfold sortItems sortBy
    rw [ih h.2]
    exact insertItem_eq a _ fun hm => h.1 ((((sortBy_perm _ l).map Prod.fst).mem_iff).mp hm)

theorem getParameters_nodup (files : Dict Str) (ps : List Str) (ret : Dict Val) (h : (ret.map Prod.fst).Nodup) :
    ((getParameters files ps ret).map Prod.fst).Nodup := by
  induction ps generalizing ret with
  | nil => exact h
  | cons p ps ih =>
    unfold getParameters
    split
    · exact ih ret h
    · exact ih _ (Dict.nodup_set h _ _)

theorem strLt_asymm' (a b : Str) (h : strLt a b = true) : strLt b a = false := by
  rw [strLt_iff] at h
  cases hb : strLt b a with
  | false => rfl
  | true => rw [strLt_iff] at hb; exact absurd (List.lt_trans h hb) (List.lt_irrefl _)

theorem prettyPrint_eq (files : Dict Str) (listing : List Str) : prettyPrint files listing =
    if getParameters files (sysfsProperties listing) [] = [] then .nothing
    else .table ((sortBy (fun x y => strLt x.1 y.1) (getParameters files (sysfsProperties listing) [])).map fun kv => (kv.1, [kv.2])) := by
  unfold prettyPrint
  simp only [List.length_eq_zero_iff]
  rw [sortItems_eq _ (getParameters_nodup files _ [] List.nodup_nil)]

theorem codes_inj {s t : Str} (h : codes s = codes t) : s = t :=
  List.map_injective_iff.mpr (fun _ _ e => Char.toNat_inj.mp e) h

/-- **C183**: nothing is displayed exactly if there is no file of a parameter. Otherwise there is a table, never a TypeError, although
integers and texts are sorted together. -/
theorem C183_shown (files : Dict Str) (listing : List Str) :
    (prettyPrint files listing = .nothing ↔ ∀ p, SysfsName listing p → files.get p = none) ∧
    ((∃ p, SysfsName listing p ∧ (files.get p).isSome) → ∃ rows, prettyPrint files listing = .table rows) := by
  have h0 : getParameters files (sysfsProperties listing) [] = [] ↔ ∀ p, SysfsName listing p → files.get p = none := by
    constructor
    · intro e p hp
      have := getParameters_get files (sysfsProperties listing) [] p
      rw [e, if_pos ((sysfsProperties_mem listing p).2 hp)] at this
      cases hf : files.get p with
      | none => rfl
      | some c => rw [hf] at this; simp [Dict.get] at this
    · intro h
      cases hg : getParameters files (sysfsProperties listing) [] with
      | nil => rfl
      | cons kv d =>
        have := getParameters_get files (sysfsProperties listing) [] kv.1
        have e : (getParameters files (sysfsProperties listing) []).get kv.1 = some kv.2 := by rw [hg]; simp [Dict.get]
        rw [e] at this
        split at this
        · rename_i hp
          rw [h _ ((sysfsProperties_mem listing _).1 hp)] at this
          simp [Dict.get] at this
        · simp [Dict.get] at this
  rw [prettyPrint_eq]
  constructor
  · rw [← h0]
    split <;> simp_all
  · rintro ⟨p, hp, hf⟩
    rw [if_neg]
    · exact ⟨_, rfl⟩
    · intro e
      rw [(h0.mp e) p hp] at hf
      cases hf

/-- **C183**: if every file ends with a line break, the table has a row for each file of a parameter, and no others, with the name and the
value; the rows are sorted by the names, and no name is there twice. -/
theorem C183_table (files : Dict Str) (listing : List Str) (hnl : ∀ p c, files.get p = some c → ∃ t, c = t ++ ['\n']) (rows : List (Str × List Val))
    (h : prettyPrint files listing = .table rows) :
    (rows.Pairwise fun x y => codes x.1 < codes y.1) ∧
    ∀ p vs, (p, vs) ∈ rows ↔ ∃ v text, vs = [v] ∧ SysfsName listing p ∧ files.get p = some (text ++ ['\n']) ∧ SysfsText text v := by
  rw [prettyPrint_eq] at h
  split at h
  · cases h
  have hrows := (SysfsShown.table.inj h).symm
  have hn := getParameters_nodup files (sysfsProperties listing) [] List.nodup_nil
  have hperm := sortBy_perm (fun x y : Str × Val => strLt x.1 y.1) (getParameters files (sysfsProperties listing) [])
  constructor
  · rw [hrows, List.pairwise_map]
    have hs := sortBy_sorted (lt := fun x y : Str × Val => strLt x.1 y.1) (fun a b h => strLt_asymm' _ _ h) (by
      intro a b c h1 h2
      cases hca : strLt c.1 a.1 with
      | false => rfl
      | true =>
        exfalso
        rw [strLt_iff] at hca
        have h1' : ¬ codes b.1 < codes a.1 := fun e => by rw [(strLt_iff _ _).mpr e] at h1; cases h1
        have h2' : ¬ codes c.1 < codes b.1 := fun e => by rw [(strLt_iff _ _).mpr e] at h2; cases h2
        exact absurd (lt_of_lt_of_le hca (not_lt.mp h1')) h2') (getParameters files (sysfsProperties listing) [])
    have hd : (sortBy (fun x y : Str × Val => strLt x.1 y.1) (getParameters files (sysfsProperties listing) [])).Pairwise fun x y => x.1 ≠ y.1 := by
      have := (hperm.map Prod.fst).nodup_iff.mpr hn
      exact List.pairwise_map.mp this
    refine (hs.and hd).imp ?_
    rintro a b ⟨h1, h2⟩
    have h1' : ¬ codes b.1 < codes a.1 := fun e => by rw [(strLt_iff _ _).mpr e] at h1; cases h1
    rcases lt_or_eq_of_le (not_lt.mp h1') with h3 | h3
    · exact h3
    · exact absurd (codes_inj h3) h2
  · intro p vs
    rw [hrows, List.mem_map]
    have key : ∀ v, (p, v) ∈ sortBy (fun x y : Str × Val => strLt x.1 y.1) (getParameters files (sysfsProperties listing) []) ↔
        SysfsName listing p ∧ ∃ text, files.get p = some (text ++ ['\n']) ∧ SysfsText text v := by
      intro v
      rw [hperm.mem_iff, ← C101_parameters_partial files listing hnl]
      exact ⟨fun h => Dict.get_of_mem hn h, fun h => Dict.get_mem h⟩
    constructor
    · rintro ⟨⟨q, v⟩, hm, e⟩
      simp only [Prod.mk.injEq] at e
      obtain ⟨rfl, rfl⟩ := e
      obtain ⟨h1, text, h2, h3⟩ := (key v).mp hm
      exact ⟨v, text, rfl, h1, h2, h3⟩
    · rintro ⟨v, text, rfl, h1, h2, h3⟩
      exact ⟨(p, v), (key v).mpr ⟨h1, text, h2, h3⟩, rfl⟩

example : prettyPrint [(cs!"policy", cs!"step_wise\n"), (cs!"cdev0_weight", cs!"1024\n"), (cs!"mode", cs!"enabled\n"), (cs!"k_d", cs!"0\n")]
    [cs!"cdev0_weight", cs!"k_d", cs!"mode", cs!"policy"] =
      .table [(cs!"cdev0_weight", [.int 1024]), (cs!"k_d", [.int 0]), (cs!"policy", [.str cs!"step_wise"])] := by decide +kernel
example : prettyPrint [(cs!"mode", cs!"enabled\n")] [cs!"mode"] = .nothing := by decide +kernel

/-- **C183 refuted** for the order of the devices and trip points, which the names are numbered by: for every number, those with one digit more
come before it. -/
theorem C183_devices_refuted (files : Dict Str) (listing : List Str) (hnl : ∀ p c, files.get p = some c → ∃ t, c = t ++ ['\n']) (rows : List (Str × List Val))
    (h : prettyPrint files listing = .table rows) (pre post : Str) (n d : Nat) (hd : d < 10) (hn : 0 < n) (j k : Nat) (vs ws : List Val)
    (hj : rows[j]? = some (pre ++ natStr n ++ '_' :: post, vs)) (hk : rows[k]? = some (pre ++ natStr (n * 10 + d) ++ '_' :: post, ws)) : k < j := by
  have hp := (C183_table files listing hnl rows h).1
  have hdig : natStr (n * 10 + d) = natStr n ++ natStr d := by
    unfold natStr
    rw [Nat.toDigits_append_toDigits (by omega) hn hd, Nat.mul_comm]
  have hlt : codes (pre ++ natStr (n * 10 + d) ++ '_' :: post) < codes (pre ++ natStr n ++ '_' :: post) := by
    obtain ⟨c, hc⟩ : ∃ c, natStr d = [c] ∧ c.toNat < '_'.toNat := by
      have : ∀ d < 10, ∃ c, natStr d = [c] ∧ c.toNat < '_'.toNat := by
        intro d hd
        have : d = 0 ∨ d = 1 ∨ d = 2 ∨ d = 3 ∨ d = 4 ∨ d = 5 ∨ d = 6 ∨ d = 7 ∨ d = 8 ∨ d = 9 := by omega
        rcases this with rfl | rfl | rfl | rfl | rfl | rfl | rfl | rfl | rfl | rfl <;> exact ⟨_, rfl, by decide⟩
      exact this d hd
    rw [hdig, hc.1]
    generalize natStr n = x
    rw [← List.append_assoc, List.append_assoc (pre ++ x)]
    generalize pre ++ x = y
    induction y with
    | nil =>
      simp only [codes, List.nil_append, List.cons_append, List.map_cons, List.cons_lt_cons_iff]
      exact Or.inl hc.2
    | cons a y ih =>
      simp only [codes, List.cons_append, List.map_cons, List.cons_lt_cons_iff] at ih ⊢
      exact Or.inr ⟨trivial, ih⟩
  rcases Nat.lt_trichotomy k j with h1 | h1 | h1
  · exact h1
  · subst h1
    rw [hj] at hk
    have := congrArg Prod.fst (Option.some.inj hk)
    simp only at this
    rw [this] at hlt
    exact absurd hlt (List.lt_irrefl _)
  · have := List.pairwise_iff_getElem.mp hp j k (List.getElem?_eq_some_iff.mp hj).1 (List.getElem?_eq_some_iff.mp hk).1 h1
    rw [(List.getElem?_eq_some_iff.mp hj).2, (List.getElem?_eq_some_iff.mp hk).2] at this
    exact absurd (List.lt_trans this hlt) (List.lt_irrefl _)

example : prettyPrint [(cs!"cdev0_weight", cs!"5\n"), (cs!"cdev1_weight", cs!"6\n"), (cs!"cdev10_weight", cs!"7\n")] [cs!"cdev0_weight", cs!"cdev1_weight", cs!"cdev10_weight"] =
    .table [(cs!"cdev0_weight", [.int 5]), (cs!"cdev10_weight", [.int 7]), (cs!"cdev1_weight", [.int 6])] := by decide +kernel

end Trappy
