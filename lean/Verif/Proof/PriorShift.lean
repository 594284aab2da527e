import Verif.Spec.PriorShift
import Verif.Proof.SameFrequencies
import Verif.Proof.Df
import Verif.Proof.Bags

/-!
# Averages under prior probability shift
-/

namespace Verif.Spec

open Verif.Model Verif.Proof

variable {α β : Type*} [DecidableEq α]

theorem unzip_bag (bag : List (α × β)) : (bag.map Prod.fst).zip (bag.map Prod.snd) = bag := by
  induction bag with
  | nil => rfl
  | cons t bag ih => simp [ih]

theorem ofClass_zip (y : List α) (rows : List β) (c : α) : ofClass (y.zip rows) c = selectRows y rows c := rfl

theorem ofClass_eq (bag : List (α × β)) (c : α) : ofClass bag c = selectRows (bag.map Prod.fst) (bag.map Prod.snd) c := by
  rw [← ofClass_zip, unzip_bag]

theorem PriorShift.mem {y : List α} {rows : List β} {bag : List (α × β)} (h : PriorShift (y.zip rows) bag) {c : α} (hc : c ∈ bag.map Prod.fst) : c ∈ y := by
  have h1 := (h.same c hc).2.1
  by_contra hn
  refine h1 ?_
  unfold ofClass
  rw [List.map_eq_nil_iff, List.filter_eq_nil_iff]
  intro t ht
  have := (List.of_mem_zip ht).1
  simp only [decide_eq_true_eq]
  rintro rfl
  exact hn this

/-- The average of anything over the bag is the mixture, with the prevalences of the bag, of its averages over the training examples of each class. -/
theorem PriorShift.mean {k : ℕ} {y : List α} {rows : List β} {bag : List (α × β)} (h : PriorShift (y.zip rows) bag) (cls : Fin k → α) (hinj : Function.Injective cls)
    (hall : ∀ a ∈ y, ∃ c, cls c = a) (f : β → ℝ) :
    ((bag.map Prod.snd).map f).sum / ((bag.map Prod.snd).length : ℝ)
      = ∑ c, ((selectRows y rows (cls c)).map f).sum / ((selectRows y rows (cls c)).length : ℝ) * freq (bag.map Prod.fst) (cls c) := by
  have hl : (bag.map Prod.fst).length = (bag.map Prod.snd).length := by simp
  rw [← selectRows_sum (bag.map Prod.fst) (bag.map Prod.snd) hl cls hinj (fun a ha => hall a (PriorShift.mem h ha)) f, Finset.sum_div]
  refine Finset.sum_congr rfl fun c _ => ?_
  have hlen := selectRows_length (bag.map Prod.fst) (bag.map Prod.snd) hl (cls c)
  by_cases hc : cls c ∈ bag.map Prod.fst
  · have e := (h.same _ hc).average f
    rw [ofClass_eq, ofClass_zip] at e
    rw [← e, hlen, freq, ← hl]
    have : (0:ℝ) < (bag.map Prod.fst).count (cls c) := by exact_mod_cast List.count_pos_iff.2 hc
    field_simp
  · have h0 : (bag.map Prod.fst).count (cls c) = 0 := List.count_eq_zero.2 hc
    rw [h0] at hlen
    rw [List.length_eq_zero_iff.1 hlen, freq, h0]
    simp

theorem selectRows_ne {y : List α} {rows : List β} (hlen : y.length = rows.length) {c : α} (hc : c ∈ y) : selectRows y rows c ≠ [] := by
  have := selectRows_length y rows hlen c
  have h2 : 0 < y.count c := List.count_pos_iff.2 hc
  intro h0
  rw [h0] at this
  simp at this
  omega

theorem PriorShift.isPrev {k : ℕ} {y : List α} {rows : List β} {bag : List (α × β)} (h : PriorShift (y.zip rows) bag) (hlen : y.length = rows.length) (cls : Fin k → α) (hinj : Function.Injective cls)
    (hall : ∀ a ∈ y, ∃ c, cls c = a) (hmem : ∀ c, cls c ∈ y) : IsPrev fun c => freq (bag.map Prod.fst) (cls c) := by
  refine ⟨fun c => by unfold freq; positivity, ?_⟩
  have e := h.mean cls hinj hall fun _ => 1
  have hb : ((bag.map Prod.snd).length : ℝ) ≠ 0 := by
    have := List.length_pos_iff.2 h.nonempty
    rw [List.length_map]
    positivity
  rw [List.map_const', List.sum_replicate, nsmul_one, div_self hb] at e
  rw [e]
  refine Finset.sum_congr rfl fun c _ => ?_
  have : ((selectRows y rows (cls c)).length : ℝ) ≠ 0 := by
    have := List.length_pos_iff.2 (selectRows_ne hlen (hmem c))
    positivity
  rw [List.map_const', List.sum_replicate, nsmul_one, div_self this, one_mul]

/-- The classes of a training set, and the prevalences of the bag. -/
theorem PriorShift.mean_labels {α : Type*} [LinearOrder α] {y yE : List α} (hy : ∀ a, a ∈ yE ↔ a ∈ y) {rows : List β} {bag : List (α × β)} (h : PriorShift (yE.zip rows) bag) (f : β → ℝ) :
    ((bag.map Prod.snd).map f).sum / ((bag.map Prod.snd).length : ℝ)
      = ∑ c, ((selectRows yE rows (labelsOf y)[c]).map f).sum / ((selectRows yE rows (labelsOf y)[c]).length : ℝ) * bagPrevs y bag c :=
  h.mean (fun c : Fin (labelsOf y).length => (labelsOf y)[c]) (getElem_inj_of_nodup (labelsOf_nodup' y)) (fun a ha => exists_getElem_of_mem ((mem_labelsOf' y a).2 ((hy a).1 ha))) f

theorem PriorShift.bagPrevs_isPrev {α : Type*} [LinearOrder α] {y yE : List α} (hy : ∀ a, a ∈ yE ↔ a ∈ y) {rows : List β} (hlen : yE.length = rows.length) {bag : List (α × β)} (h : PriorShift (yE.zip rows) bag) :
    IsPrev (bagPrevs y bag) :=
  h.isPrev hlen (fun c : Fin (labelsOf y).length => (labelsOf y)[c]) (getElem_inj_of_nodup (labelsOf_nodup' y)) (fun a ha => exists_getElem_of_mem ((mem_labelsOf' y a).2 ((hy a).1 ha)))
    (fun c => (hy _).2 ((mem_labelsOf' y _).1 (List.getElem_mem _)))

end Verif.Spec
