import Verif.Props.Store
import Verif.Props.Tel
/-!
# C02, C17 the visual separators of a telephone number are removed in place

`RemoveTelUriVisualSeperator` changes a string of the arena where it lies.  On the byte layer: afterwards the string reads as the digits without the separators -
what the value layer (`removeVisualSeparators`) says -, and no byte outside of the string has changed.
-/
namespace Sip

/-- `n` bytes of memory from `i` on -/
def bytesAt (m : Mem) (i n : Nat) : Bytes := (List.range n).map (fun j => m (i + j))

theorem bytesAt_succ (m : Mem) (i n : Nat) : bytesAt m i (n + 1) = m i :: bytesAt m (i + 1) n := by
  unfold bytesAt
  rw [List.range_succ_eq_map, List.map_cons, List.map_map]
  congr 1
  refine List.map_congr_left (fun j _ => ?_)
  show m (i + (j + 1)) = m (i + 1 + j)
  congr 1; omega

theorem bytesAt_congr (m m' : Mem) (i n : Nat) (h : ∀ j, i ≤ j → j < i + n → m' j = m j) : bytesAt m' i n = bytesAt m i n := by
  unfold bytesAt
  refine List.map_congr_left (fun j hj => h _ (by omega) ?_)
  have := List.mem_range.1 hj; omega

/-- the loop: what is kept of the `n` bytes from `read` on is moved to `write` -/
theorem bRemoveVis_spec (n : Nat) : ∀ (read write : Nat) (m : Mem), write ≤ read →
    let kept := removeVisualSeparators (bytesAt m read n)
    let r := bRemoveVis n read write m
    r.1 = write + kept.length ∧ bytesAt r.2 write kept.length = kept ∧ ∀ i, i < write ∨ read + n ≤ i → r.2 i = m i := by
  induction n with
  | zero => intro read write m h; exact ⟨rfl, rfl, fun _ _ => rfl⟩
  | succ n ih =>
    intro read write m h
    rw [bytesAt_succ]
    unfold bRemoveVis
    cases hs : isTelVisualSperator (m read) with
    | true =>
      have e : removeVisualSeparators (m read :: bytesAt m (read + 1) n) = removeVisualSeparators (bytesAt m (read + 1) n) := by
        unfold removeVisualSeparators; rw [List.filter_cons_of_neg (by simp [hs])]
      rw [e]
      obtain ⟨h1, h2, h3⟩ := ih (read + 1) write m (by omega)
      exact ⟨h1, h2, fun i hi => h3 i (by omega)⟩
    | false =>
      have e : removeVisualSeparators (m read :: bytesAt m (read + 1) n) = m read :: removeVisualSeparators (bytesAt m (read + 1) n) := by
        unfold removeVisualSeparators; rw [List.filter_cons_of_pos (by simp [hs])]
      rw [e]
      obtain ⟨h1, h2, h3⟩ := ih (read + 1) (write + 1) (upd m write (m read)) (by omega)
      rw [bytesAt_congr m (upd m write (m read)) (read + 1) n (fun j hj _ => if_neg (by omega))] at h1 h2
      refine ⟨by rw [List.length_cons]; show (bRemoveVis n (read + 1) (write + 1) (upd m write (m read))).1 = _; rw [h1]; omega, ?_, fun i hi => ?_⟩
      · rw [List.length_cons, bytesAt_succ]
        have hx : (bRemoveVis n (read + 1) (write + 1) (upd m write (m read))).2 write = m read := (h3 write (by omega)).trans (if_pos rfl)
        exact (congrArg (· :: _) hx).trans (congrArg (m read :: ·) h2)
      · refine (h3 i (by omega)).trans ?_
        exact if_neg (by omega)

/-- **C02** the string at `p` reads as before without its visual separators, and all other bytes are as before -/
theorem store_removeVisual (m : Mem) (p : Nat) (hp : 2 ≤ p) :
    readStr (bRemoveVisual m p) p = removeVisualSeparators (readStr m p) ∧
    ∀ i, i < p - 2 ∨ p + strlen m p ≤ i → bRemoveVisual m p i = m i := by
  have hlen : strlen m p < 65536 := by
    unfold strlen
    have := (m (p - 2)).toNat_lt
    have := (m (p - 1)).toNat_lt
    split <;> omega
  obtain ⟨h1, h2, h3⟩ := bRemoveVis_spec (strlen m p) p p m (Nat.le_refl _)
  have hr : readStr m p = bytesAt m p (strlen m p) := rfl
  have hk : (removeVisualSeparators (bytesAt m p (strlen m p))).length ≤ strlen m p := by
    have : (bytesAt m p (strlen m p)).length = strlen m p := by simp [bytesAt]
    have h := List.length_filter_le (fun v => !isTelVisualSperator v) (bytesAt m p (strlen m p))
    unfold removeVisualSeparators
    omega
  have hb : bRemoveVisual m p = putU16 (bRemoveVis (strlen m p) p p m).2 (p - 2) (removeVisualSeparators (bytesAt m p (strlen m p))).length := by
    unfold bRemoveVisual
    dsimp only
    rw [h1, Nat.add_sub_cancel_left]
  have hs : strlen (bRemoveVisual m p) p = (removeVisualSeparators (bytesAt m p (strlen m p))).length := by
    rw [hb]
    have := strlen_putU16 (bRemoveVis (strlen m p) p p m).2 (p - 2) (removeVisualSeparators (bytesAt m p (strlen m p))).length (by omega)
    rwa [Nat.sub_add_cancel hp] at this
  constructor
  · show bytesAt _ p (strlen _ p) = _
    rw [hs, hr, hb, bytesAt_congr (bRemoveVis (strlen m p) p p m).2 _ p _ (fun j hj _ => putU16_other _ _ _ _ (by omega))]
    exact h2
  · intro i hi
    rw [hb, putU16_other _ _ _ _ (by omega)]
    exact h3 i (by omega)

/-- the premises are met: the number `+1-2` in an arena -/
theorem removeVisual_sample : let m : Mem := fun i => if i = 8 then 4 else if i = 9 then 0 else (str "+1-2").getD (i - 10) 0
    readStr m 10 = str "+1-2" ∧ readStr (bRemoveVisual m 10) 10 = str "+12" := by decide +kernel

end Sip
