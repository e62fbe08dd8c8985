import Verif.Model.Arena
namespace Sip
open Arena

theorem u32_lt (n : Nat) : u32 n < 4294967296 := Nat.mod_lt _ (by decide)
theorem u32_id {n : Nat} (h : n < 4294967296) : u32 n = n := Nat.mod_eq_of_lt h
theorem u16_id {n : Nat} (h : n < 65536) : u16 n = n := Nat.mod_eq_of_lt h

/-- With the alignment the code uses (1) rounding is the identity on uint32. -/
theorem roundToAlign_one (x : Nat) (h : x < 4294967296) : roundToAlign x memAlign = x := by
  have h1 : u32 (x + memAlign + 4294967295) = x := by simp only [u32, memAlign]; omega
  have h2 : 4294967295 - u32 (memAlign + 4294967295) = 2 ^ 32 - 1 := by decide
  unfold roundToAlign
  rw [h1, h2, Nat.and_two_pow_sub_one_eq_mod, Nat.mod_eq_of_lt (by omega)]

theorem alloc_spec (a : Arena) (n : Nat) (hw : a.used + n < 4294967296) :
    a.alloc n =
      if n = 0 ∨ a.used + n > a.cap then (a.countReq n, 0)
      else ({ (a.countReq n) with used := a.used + n, stat := { (a.countReq n).stat with allocNumOk := u32 (a.stat.allocNumOk + 1) } }, u16 a.used) := by
  unfold alloc
  have h1 : u32 ((a.countReq n).used + n) = a.used + n := by
    show u32 (a.used + n) = _; exact u32_id hw
  simp only [h1, roundToAlign_one _ hw]
  by_cases h0 : n = 0
  · simp [h0]
  · by_cases h2 : a.used + n > a.cap
    · simp [h0, h2, countReq]
    · simp [h0, countReq]

theorem allocEx_spec (a : Arena) (n : Nat) (hw : a.used + n < 4294967296) :
    a.allocEx n = ((a.alloc n).1, (a.alloc n).2, if n = 0 ∨ a.used + n > a.cap then 0 else n) := by
  rw [alloc_spec a n hw]
  unfold allocEx
  have h1 : u32 ((a.countReq n).used + n) = a.used + n := by
    show u32 (a.used + n) = _; exact u32_id hw
  simp only [h1, roundToAlign_one _ hw]
  by_cases h0 : n = 0
  · simp [h0]
  · by_cases h2 : a.used + n > a.cap
    · simp [h0, h2, countReq]
    · have h3 : u32 (a.used + n + 4294967296 - a.used) = n := by simp only [u32]; omega
      simp [h0, h2, countReq, h3]

theorem allocWithClear_spec (a : Arena) (n : Nat) (hw : a.used + n < 4294967296) :
    a.allocWithClear n =
      .ok (if n = 0 ∨ a.used + n > a.cap then (a.countReq n, 0)
           else ({ (a.alloc n).1 with mem := zero a.mem a.used n }, u16 a.used)) := by
  rw [alloc_spec a n hw]
  unfold allocWithClear
  have h1 : u32 ((a.countReq n).used + n) = a.used + n := by
    show u32 (a.used + n) = _; exact u32_id hw
  simp only [h1, roundToAlign_one _ hw]
  by_cases h0 : n = 0
  · simp [h0]
  · by_cases h2 : a.used + n > a.cap
    · simp [h0, h2, countReq]
    · have h3 : u32 (a.used + n + 4294967296 - a.used) = n := by simp only [u32]; omega
      have h4 : ¬ a.cap ≤ a.used := by omega
      simp [h0, h2, countReq, h3, h4]

theorem freePart_spec (a : Arena) (r : Nat) (hr : r + 8 < 4294967296) :
    a.freePart r = { a with stat := { a.stat with freePartNum := u32 (a.stat.freePartNum + 1) },
                            used := if r ≥ a.used then a.used else r + 8 } := by
  unfold freePart
  have h : u32 (r + 8) = r + 8 := u32_id hr
  by_cases h1 : r ≥ a.used
  · simp [h1]
  · simp [h1, h, prefixLen]; omega

end Sip
