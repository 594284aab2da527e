import Verif.Model.LoadData

/-!
# C139: `load_data`
-/

namespace Verif.Props

open Verif.Model

/-- The lines of a file with one example per line: the features and then the class. -/
noncomputable def fileOf (examples : List (List ℝ × ℤ)) : List (List Fl) := examples.map fun e => e.1.map Fl.fin ++ [Fl.fin e.2]

theorem astypeInt_int (junk z : ℤ) : astypeInt junk (.fin z) = z := by
  simp only [astypeInt]
  split <;> simp

theorem genfromtxt_same (l l' : List Fl) (rest : List (List Fl)) (c : ℕ) (hc : ∀ x ∈ l :: l' :: rest, x.length = c + 2) :
    genfromtxt (l :: l' :: rest) = .ok (.mat (l :: l' :: rest).length (c + 2) fun i j => (l :: l' :: rest)[i].getD j .nan) := by
  have hl : l.length = c + 2 := hc l (by simp)
  have h : ∀ x ∈ l' :: rest, x.length = l.length := fun x hx => by rw [hl, hc x (List.mem_cons_of_mem _ hx)]
  simp only [genfromtxt]
  rw [if_pos h, hl]
  rfl

theorem row_back (l : List Fl) (c : ℕ) (hc : l.length = c) : (List.ofFn fun j : Fin c => l.getD j .nan) = l := by
  subst hc
  refine List.ext_getElem (by simp) fun i h1 h2 => ?_
  simp [List.getD_eq_getElem?_getD, List.getElem?_eq_getElem h2]

/-- **C139**: a file with two or more examples, all with the same number of features (one or more), is read example by example, features and classes in order. -/
theorem C139_load_partial (junk : ℤ) (examples : List (List ℝ × ℤ)) (d : ℕ) (hd : 0 < d) (hlen : ∀ e ∈ examples, e.1.length = d) (hn : 2 ≤ examples.length) :
    loadData junk (fileOf examples) = .ok (examples.map fun e => e.1.map Fl.fin, examples.map fun e => e.2) := by
  obtain ⟨c, rfl⟩ : ∃ c, d = c + 1 := ⟨d - 1, by omega⟩
  have hc : ∀ x ∈ fileOf examples, x.length = c + 2 := by
    intro x hx
    obtain ⟨e, he, rfl⟩ := List.mem_map.1 hx
    simp [hlen e he]
  have hg : genfromtxt (fileOf examples) = .ok (.mat (fileOf examples).length (c + 2) fun i j => (fileOf examples)[i].getD j .nan) := by
    match examples, hn with
    | a :: b :: r, _ => exact genfromtxt_same _ _ _ c hc
  simp only [loadData, hg]
  have hrow : ∀ i : Fin (fileOf examples).length, (List.ofFn fun j : Fin (c + 2) => (fileOf examples)[i].getD j .nan) = (fileOf examples)[i] := fun i => row_back _ _ (hc _ (List.getElem_mem _))
  simp only [hrow]
  congr 2
  · refine List.ext_getElem (by simp [fileOf]) fun i h1 h2 => ?_
    simp [fileOf]
  · refine List.ext_getElem (by simp [fileOf]) fun i h1 h2 => ?_
    simp [fileOf, astypeInt_int]

/-- **C139, refuted**: a file with a single example is rejected. -/
theorem C139_one_example_refuted (junk : ℤ) (e : List ℝ × ℤ) (he : e.1 ≠ []) : loadData junk (fileOf [e]) = .error .indexError := by
  obtain ⟨x, z⟩ := e
  match x, he with
  | a :: r, _ =>
    have sq : ∀ c (m : Fin 1 → Fin (c + 2) → Fl), ∃ c' v, npSqueeze (.mat 1 (c + 2) m) = .vec c' v := fun c m => ⟨c + 2, m 0, rfl⟩
    have : ∃ c v, genfromtxt (fileOf [(a :: r, z)]) = .ok (.vec c v) := by
      have hl : (List.map Fl.fin (a :: r) ++ [Fl.fin (z : ℝ)]).length = r.length + 2 := by simp
      simp only [genfromtxt, fileOf, List.map_cons, List.map_nil]
      rw [if_pos (by simp)]
      rw [List.map_cons] at hl
      rw [hl]
      obtain ⟨c, v, h⟩ := sq r.length _
      exact ⟨c, v, congrArg Except.ok h⟩
    obtain ⟨c, v, h⟩ := this
    simp [loadData, h]

/-- **C139** (malformed files): two lines with different numbers of fields are rejected. -/
theorem C139_ragged (junk : ℤ) (lines : List (List Fl)) (l l' : List Fl) (hl : l ∈ lines) (hl' : l' ∈ lines) (h : l.length ≠ l'.length) : loadData junk lines = .error .valueError := by
  match lines, hl, hl' with
  | a :: r, hl, hl' =>
    have : ¬ ∀ x ∈ r, x.length = a.length := by
      intro hr
      have hall : ∀ x ∈ a :: r, x.length = a.length := fun x hx => (List.mem_cons.1 hx).elim (fun e => by rw [e]) (hr x)
      exact h (by rw [hall l hl, hall l' hl'])
    simp only [loadData, genfromtxt, if_neg this]

/-- Non-vacuity: a file with two examples and two features. -/
example : loadData 0 (fileOf [([1/2, 3], 1), ([0, -1], 2)]) = .ok ([[.fin (1/2), .fin 3], [.fin 0, .fin (-1)]], [1, 2]) :=
  C139_load_partial 0 [([1/2, 3], 1), ([0, -1], 2)] 2 (by norm_num) (by simp) (by simp)

/-- **C139** (other labels): the labels of a file are cut to integers, so that different labels may become one class. -/
theorem C139_labels_cut (junk : ℤ) : loadData junk [[.fin 1, .fin (1/4)], [.fin 2, .fin (3/4)]] = .ok ([[.fin 1], [.fin 2]], [0, 0]) := by
  have hg := genfromtxt_same [.fin 1, .fin (1/4)] [.fin 2, .fin (3/4)] [] 0 (by simp)
  simp only [loadData, hg]
  have h1 : astypeInt junk (.fin (1/4)) = 0 := by
    rw [astypeInt, if_pos (by norm_num)]
    norm_num [Int.floor_eq_iff]
  have h2 : astypeInt junk (.fin (3/4)) = 0 := by
    rw [astypeInt, if_pos (by norm_num)]
    norm_num [Int.floor_eq_iff]
  simp [-one_div, List.ofFn_succ, h1, h2]

end Verif.Props
