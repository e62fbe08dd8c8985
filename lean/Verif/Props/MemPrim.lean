import Verif.Model.MemPrim
import Verif.Props.HeapHeaders
import Verif.Props.Ref
/-!
# C49 The memory primitives do what their callers assume
-/
namespace Sip
attribute [local irreducible] u32 u16 roundToAlign
open Asrt

theorem B.bind_run_some {α β : Type} {x : B α} (f : α → B β) {c c' : BCtx} {a : α} (h : x c = .ok (some a, c')) : (x >>= f) c = f a c' := by
  show B.bind x f c = _
  unfold B.bind; rw [h]
theorem B.bind_run_none {α β : Type} {x : B α} (f : α → B β) {c c' : BCtx} (h : x c = .ok (none, c')) : (x >>= f) c = .ok (none, c') := by
  show B.bind x f c = _
  unfold B.bind; rw [h]
theorem B.bind_run_panic {α β : Type} {x : B α} (f : α → B β) {c : BCtx} (h : x c = .panic) : (x >>= f) c = .panic := by
  show B.bind x f c = _
  unfold B.bind; rw [h]
theorem B.bind_run_hang {α β : Type} {x : B α} (f : α → B β) {c : BCtx} (h : x c = .hang) : (x >>= f) c = .hang := by
  show B.bind x f c = _
  unfold B.bind; rw [h]

/-! ## Clearing -/

/-- the bytes from `p` on, `n` of them, are zero, all others as before -/
def Cleared (p n : Nat) (m m' : Mem) : Prop := (∀ i, p ≤ i → i < p + n → m' i = 0) ∧ ∀ i, ¬ (p ≤ i ∧ i < p + n) → m' i = m i

theorem cleared_zero (m : Mem) (p n : Nat) : Cleared p n m (Arena.zero m p n) := by
  refine ⟨fun i h1 h2 => ?_, fun i h => ?_⟩
  · unfold Arena.zero; rw [if_pos ⟨h1, h2⟩]
  · unfold Arena.zero; rw [if_neg h]

/-- there is only one such memory -/
theorem Cleared.eq {p n : Nat} {m m' : Mem} (h : Cleared p n m m') : m' = Arena.zero m p n := by
  funext i
  unfold Arena.zero
  split
  · rename_i hi; exact h.1 i hi.1 hi.2
  · rename_i hi; exact h.2 i hi

theorem zeroWords_eq (n : Nat) : ∀ fuel p m, n < fuel → zeroWords (p + 8 * n) fuel p m = .ok (p + 8 * n, Arena.zero m p (8 * n)) := by
  induction n with
  | zero =>
    intro fuel p m hf
    obtain ⟨f, rfl⟩ : ∃ f, fuel = f + 1 := ⟨fuel - 1, by omega⟩
    rw [zeroWords, if_neg (by omega)]
    congr 2
    funext i; unfold Arena.zero; rw [if_neg (by omega)]
  | succ n ih =>
    intro fuel p m hf
    obtain ⟨f, rfl⟩ : ∃ f, fuel = f + 1 := ⟨fuel - 1, by omega⟩
    rw [zeroWords, if_pos (by omega), show p + 8 * (n + 1) = p + 8 + 8 * n by omega, ih f (p + 8) _ (by omega)]
    congr 2
    funext i
    unfold Arena.zero zero64
    by_cases h1 : p + 8 ≤ i ∧ i < p + 8 + 8 * n
    · rw [if_pos h1, if_pos (by omega)]
    · rw [if_neg h1]
      by_cases h2 : p ≤ i ∧ i < p + 8
      · rw [if_pos h2, if_pos (by omega)]
      · rw [if_neg h2, if_neg (by omega)]

theorem zeroBytes_eq (n : Nat) : ∀ fuel p m, n < fuel → zeroBytes (p + n) fuel p m = .ok (Arena.zero m p n) := by
  induction n with
  | zero =>
    intro fuel p m hf
    obtain ⟨f, rfl⟩ : ∃ f, fuel = f + 1 := ⟨fuel - 1, by omega⟩
    rw [zeroBytes, if_neg (by omega)]
    congr 1
    funext i; unfold Arena.zero; rw [if_neg (by omega)]
  | succ n ih =>
    intro fuel p m hf
    obtain ⟨f, rfl⟩ : ∃ f, fuel = f + 1 := ⟨fuel - 1, by omega⟩
    rw [zeroBytes, if_pos (by omega), show p + (n + 1) = p + 1 + n by omega, ih f (p + 1) _ (by omega)]
    congr 1
    funext i
    unfold Arena.zero upd
    by_cases h1 : p + 1 ≤ i ∧ i < p + 1 + n
    · rw [if_pos h1, if_pos (by omega)]
    · rw [if_neg h1]
      by_cases h2 : i = p
      · rw [if_pos h2, if_pos (by omega)]
      · rw [if_neg h2, if_neg (by omega)]

theorem zeroChunks_eq (m : Mem) (p n : Nat) : zeroChunks m p n = .ok (Arena.zero m p n) := by
  unfold zeroChunks
  rw [show p + n / 8 * 8 = p + 8 * (n / 8) by omega, zeroWords_eq _ _ _ _ (by omega)]
  dsimp only
  rw [show p + n = p + 8 * (n / 8) + (n - 8 * (n / 8)) by omega, zeroBytes_eq _ _ _ _ (by omega)]
  congr 1
  funext i
  unfold Arena.zero
  by_cases h1 : p + 8 * (n / 8) ≤ i ∧ i < p + 8 * (n / 8) + (n - 8 * (n / 8))
  · rw [if_pos h1, if_pos (by omega)]
  · rw [if_neg h1]
    by_cases h2 : p ≤ i ∧ i < p + 8 * (n / 8)
    · rw [if_pos h2, if_pos (by omega)]
    · rw [if_neg h2, if_neg (by omega)]

theorem zeroRange_eq (p n : Nat) : ∀ i m, zeroRange p n i m = Arena.zero m (p + i) n := by
  induction n with
  | zero => intro i m; funext j; unfold zeroRange Arena.zero; rw [if_neg (by omega)]
  | succ n ih =>
    intro i m
    rw [zeroRange, ih]
    funext j
    unfold Arena.zero upd
    by_cases h1 : p + (i + 1) ≤ j ∧ j < p + (i + 1) + n
    · rw [if_pos h1, if_pos (by omega)]
    · rw [if_neg h1]
      by_cases h2 : j = p + i
      · rw [if_pos h2, if_pos (by omega)]
      · rw [if_neg h2, if_neg (by omega)]

/-- **C49** `ZeroMem` clears the bytes it is asked to clear and no others, for every address and size; it does not depend on the alignment. -/
theorem zeroMem_exact (m : Mem) (p n : Nat) : ∃ m', zeroMem m p n = .ok m' ∧ Cleared p n m m' := by
  refine ⟨_, ?_, cleared_zero m p n⟩
  unfold zeroMem
  split
  · rename_i h; subst h
    congr 1
    funext i; unfold Arena.zero; rw [if_neg (by omega)]
  · split
    · rw [zeroRange_eq]; rfl
    · exact zeroChunks_eq m p n

/-- **C49** the same for `ZeroByteSlice` and `ZeroByteSlice2` -/
theorem zeroByteSlice_exact (m : Mem) (p n : Nat) : (∃ m', zeroByteSlice m p n = .ok m' ∧ Cleared p n m m') ∧ Cleared p n m (zeroRange p n 0 m) := by
  constructor
  · refine ⟨_, ?_, cleared_zero m p n⟩
    unfold zeroByteSlice
    split
    · rename_i h; subst h
      congr 1
      funext i; unfold Arena.zero; rw [if_neg (by omega)]
    · exact zeroChunks_eq m p n
  · rw [zeroRange_eq]; exact cleared_zero m p n

/-- **C49** so the clearing assumed in the allocator and in the `Init` methods (`Arena.zero`, `B.zero`) is what `ZeroMem` does -/
theorem init_is_zeroMem (a n : Nat) (c : BCtx) : ∃ m', zeroMem c.a.mem a n = .ok m' ∧ B.zero a n c = .ok (some (), c.setMem m') := by
  obtain ⟨m', h1, h2⟩ := zeroMem_exact c.a.mem a n
  exact ⟨m', h1, by rw [h2.eq]; rfl⟩

/-! ## Copying -/

/-- the `n` bytes at `dst` are what the bytes at `src` were, all others as before -/
def Copied (dst src n : Nat) (m m' : Mem) : Prop := (∀ i < n, m' (dst + i) = m (src + i)) ∧ ∀ i, ¬ (dst ≤ i ∧ i < dst + n) → m' i = m i

def copied (m : Mem) (dst src n : Nat) : Mem := fun i => if dst ≤ i ∧ i < dst + n then m (src + (i - dst)) else m i

theorem copied_spec (m : Mem) (dst src n : Nat) : Copied dst src n m (copied m dst src n) := by
  refine ⟨fun i h => ?_, fun i h => ?_⟩
  · unfold copied; rw [if_pos (by omega)]; congr 1; omega
  · unfold copied; rw [if_neg h]

theorem copied_comp (m : Mem) (dst src a b : Nat) (h : dst ≤ src ∨ src + (a + b) ≤ dst) :
    copied (copied m dst src a) (dst + a) (src + a) b = copied m dst src (a + b) := by
  funext i
  unfold copied
  by_cases h1 : dst + a ≤ i ∧ i < dst + a + b
  · rw [if_pos h1, if_neg (show ¬ (dst ≤ src + a + (i - (dst + a)) ∧ src + a + (i - (dst + a)) < dst + a) by omega),
      if_pos (show dst ≤ i ∧ i < dst + (a + b) by omega)]
    congr 1; omega
  · rw [if_neg h1]
    by_cases h2 : dst ≤ i ∧ i < dst + a
    · rw [if_pos h2, if_pos (by omega)]
    · rw [if_neg h2, if_neg (by omega)]

theorem copied_zero (m : Mem) (dst src : Nat) : copied m dst src 0 = m := by
  funext i; unfold copied; rw [if_neg (by omega)]

theorem copyWords_eq (n : Nat) : ∀ fuel p1 p2 m, n < fuel → (p1 ≤ p2 ∨ p2 + 8 * n ≤ p1) →
    copyWords (p2 + 8 * n) fuel p1 p2 m = .ok (p1 + 8 * n, p2 + 8 * n, copied m p1 p2 (8 * n)) := by
  induction n with
  | zero =>
    intro fuel p1 p2 m hf _
    obtain ⟨f, rfl⟩ : ∃ f, fuel = f + 1 := ⟨fuel - 1, by omega⟩
    rw [copyWords, if_neg (by omega), copied_zero]
    rfl
  | succ n ih =>
    intro fuel p1 p2 m hf h
    obtain ⟨f, rfl⟩ : ∃ f, fuel = f + 1 := ⟨fuel - 1, by omega⟩
    rw [copyWords, if_pos (by omega), show p2 + 8 * (n + 1) = p2 + 8 + 8 * n by omega, ih f (p1 + 8) (p2 + 8) _ (by omega) (by omega),
      show copy64 m p1 p2 = copied m p1 p2 8 from rfl, copied_comp m p1 p2 8 (8 * n) (by omega), show 8 * (n + 1) = 8 + 8 * n by omega,
      show p1 + (8 + 8 * n) = p1 + 8 + 8 * n by omega]

theorem copyBytes_eq (n : Nat) : ∀ fuel p1 p2 m, n < fuel → (p1 ≤ p2 ∨ p2 + n ≤ p1) →
    copyBytes (p2 + n) fuel p1 p2 m = .ok (copied m p1 p2 n) := by
  induction n with
  | zero =>
    intro fuel p1 p2 m hf _
    obtain ⟨f, rfl⟩ : ∃ f, fuel = f + 1 := ⟨fuel - 1, by omega⟩
    rw [copyBytes, if_neg (by omega), copied_zero]
  | succ n ih =>
    intro fuel p1 p2 m hf h
    obtain ⟨f, rfl⟩ : ∃ f, fuel = f + 1 := ⟨fuel - 1, by omega⟩
    have h1 : upd m p1 (m p2) = copied m p1 p2 1 := by
      funext i
      unfold upd copied
      by_cases hi : i = p1
      · rw [if_pos hi, if_pos (by omega)]; congr 1; omega
      · rw [if_neg hi, if_neg (by omega)]
    rw [copyBytes, if_pos (by omega), show p2 + (n + 1) = p2 + 1 + n by omega, ih f (p1 + 1) (p2 + 1) _ (by omega) (by omega), h1,
      copied_comp m p1 p2 1 n (by omega), show n + 1 = 1 + n by omega]

/-- **C49** `Memcpy` copies, whatever the size and the addresses, unless the target begins inside the source. -/
theorem memcpy_exact (m : Mem) (dst src n : Nat) (h : dst ≤ src ∨ src + n ≤ dst) : ∃ m', memcpy m dst src n = .ok m' ∧ Copied dst src n m m' := by
  refine ⟨_, ?_, copied_spec m dst src n⟩
  unfold memcpy
  rw [show src + n / 8 * 8 = src + 8 * (n / 8) by omega, copyWords_eq _ _ _ _ _ (by omega) (by omega)]
  dsimp only
  rw [show src + n = src + 8 * (n / 8) + (n - 8 * (n / 8)) by omega, copyBytes_eq _ _ _ _ _ (by omega) (by omega), copied_comp m dst src _ _ (by omega)]
  rw [show 8 * (n / 8) + (n - 8 * (n / 8)) = n by omega]

/-- **C49** … and then it does not: moving three bytes up by one repeats the first of them. -/
theorem memcpy_overlap : ∃ m m' : Mem, memcpy m 1 0 3 = .ok m' ∧ m 2 ≠ m' 3 := by
  refine ⟨fun i => UInt8.ofNat i, _, rfl, ?_⟩
  decide +kernel

/-- **C49** `CopyFrom` copies within the arena, also when the two parts overlap; it panics when one of them does not lie inside it, and does nothing for nil. -/
theorem copyFrom_exact (a : Arena) (this src n : Nat) (h1 : this ≠ 0) (h2 : src ≠ 0) :
    if this + n ≤ a.cap ∧ src + n ≤ a.cap then ∃ m', ptrCopyFrom a this src n = .ok { a with mem := m' } ∧ Copied this src n a.mem m'
    else ptrCopyFrom a this src n = .panic := by
  unfold ptrCopyFrom
  have h3 : ¬ (this = 0 ∨ src = 0) := by omega
  by_cases hc : this + n ≤ a.cap ∧ src + n ≤ a.cap
  · rw [if_pos hc, if_neg h3, if_neg (show ¬ (this + n > a.cap ∨ src + n > a.cap) by omega)]
    exact ⟨_, rfl, copied_spec a.mem this src n⟩
  · rw [if_neg hc, if_neg h3, if_pos (show this + n > a.cap ∨ src + n > a.cap by omega)]

theorem copyFrom_nil (a : Arena) (this src n : Nat) (h : this = 0 ∨ src = 0) : ptrCopyFrom a this src n = .ok a := by
  unfold ptrCopyFrom; rw [if_pos h]

/-! ## Lengths -/

/-- **C49** `Strlen2` finds the first zero byte … -/
theorem strlen2_exact (m : Mem) (p n : Nat) (hp : p ≠ 0) (h0 : m (p + n) = 0) (h : ∀ i < n, m (p + i) ≠ 0) (fuel : Nat) (hf : n < fuel) :
    strlen2 m fuel p = .ok n := by
  induction n generalizing p fuel with
  | zero =>
    obtain ⟨f, rfl⟩ : ∃ f, fuel = f + 1 := ⟨fuel - 1, by omega⟩
    rw [strlen2, if_neg hp, if_pos (show m p = 0 from h0)]
  | succ n ih =>
    obtain ⟨f, rfl⟩ : ∃ f, fuel = f + 1 := ⟨fuel - 1, by omega⟩
    rw [strlen2, if_neg hp, if_neg (show ¬ m p = 0 from h 0 (by omega)), ih (p + 1) (by omega) (by rw [← h0]; congr 1; omega)
      (fun i hi => by have := h (i + 1) (by omega); rwa [show p + 1 + i = p + (i + 1) by omega]) f (by omega)]

/-- **C49** … and that is the length of a stored text exactly when a zero byte stands behind it and there is none in it; the library writes no such byte. -/
theorem strlen2_strlen (m : Mem) (p : Nat) (hp : p ≠ 0) (fuel : Nat) (hf : strlen m p < fuel) :
    strlen2 m fuel p = .ok (strlen m p) ↔ m (p + strlen m p) = 0 ∧ ∀ v ∈ readStr m p, v ≠ 0 := by
  have hr : (∀ v ∈ readStr m p, v ≠ 0) ↔ ∀ i < strlen m p, m (p + i) ≠ 0 := by
    unfold readStr
    constructor
    · intro h i hi
      exact h _ (List.mem_map.2 ⟨i, List.mem_range.2 hi, rfl⟩)
    · intro h v hv
      obtain ⟨i, hi, rfl⟩ := List.mem_map.1 hv
      exact h i (List.mem_range.1 hi)
  rw [hr]
  constructor
  · have key : ∀ fuel p n, p ≠ 0 → strlen2 m fuel p = .ok n → m (p + n) = 0 ∧ ∀ i < n, m (p + i) ≠ 0 := by
      intro fuel
      induction fuel with
      | zero => intro p n _ h; cases h
      | succ f ih =>
        intro p n hp h
        rw [strlen2, if_neg hp] at h
        split at h
        · rename_i h0; cases h; exact ⟨h0, by omega⟩
        · rename_i h0
          rcases hr : strlen2 m f (p + 1) with k | _ | _ <;> rw [hr] at h <;> cases h
          obtain ⟨h1, h2⟩ := ih (p + 1) k (by omega) hr
          refine ⟨by rw [← h1]; congr 1; omega, fun i hi => ?_⟩
          cases i with
          | zero => exact h0
          | succ i => rw [show p + (i + 1) = p + 1 + i by omega]; exact h2 i (by omega)
    exact key fuel p _ hp
  · rintro ⟨h1, h2⟩
    exact strlen2_exact m p _ hp h1 h2 fuel hf

/-! ## Comparison -/

theorem eqWords_spec (m : Mem) (p : Nat) (name : Bytes) : ∀ fuel k, k % 8 = 0 → k ≤ name.length → name.length < fuel + k → (∀ i < k, m (p + i) = name.getD i 0) →
    ∃ k', eqWords m p name fuel k = .ok k' ∧ k' ≤ name.length ∧ ∀ i < k', m (p + i) = name.getD i 0 := by
  intro fuel
  induction fuel with
  | zero => intro k _ h1 h2; omega
  | succ f ih =>
    intro k h8 h1 h2 h
    rw [eqWords]
    by_cases hk : k < name.length / 8 * 8
    · rw [if_pos hk]
      by_cases ha : (List.range 8).all (fun i => m (p + k + i) == name.getD (k + i) 0) = true
      · rw [if_pos ha]
        refine ih (k + 8) (by omega) (by omega) (by omega) (fun i hi => ?_)
        by_cases hik : i < k
        · exact h i hik
        · have := List.all_eq_true.1 ha (i - k) (List.mem_range.2 (by omega))
          rw [show p + k + (i - k) = p + i by omega, show k + (i - k) = i by omega] at this
          exact eq_of_beq this
      · rw [if_neg ha]; exact ⟨k, rfl, h1, h⟩
    · rw [if_neg hk]; exact ⟨k, rfl, h1, h⟩

theorem eqBytes_spec (m : Mem) (p : Nat) (name : Bytes) : ∀ fuel k, k ≤ name.length → name.length < fuel + k → (∀ i < k, m (p + i) = name.getD i 0) →
    ∃ k', eqBytes m p name fuel k = .ok k' ∧ k' ≤ name.length ∧ ∀ i < k', m (p + i) = name.getD i 0 := by
  intro fuel
  induction fuel with
  | zero => intro k h1 h2; omega
  | succ f ih =>
    intro k h1 h2 h
    rw [eqBytes]
    by_cases hk : k < name.length
    · rw [if_pos hk]
      by_cases ha : m (p + k) = name.getD k 0
      · rw [if_pos ha]
        refine ih (k + 1) (by omega) (by omega) (fun i hi => ?_)
        by_cases hik : i < k
        · exact h i hik
        · rw [show i = k by omega]; exact ha
      · rw [if_neg ha]; exact ⟨k, rfl, h1, h⟩
    · rw [if_neg hk]; exact ⟨k, rfl, h1, h⟩

theorem eqLower_spec (m : Mem) (p : Nat) (name : Bytes) : ∀ fuel k, k ≤ name.length → name.length < fuel + k →
    ∃ b, eqLower m p name fuel k = .ok b ∧ (b = true ↔ ∀ i, k ≤ i → i < name.length → toLower (m (p + i)) = toLower (name.getD i 0)) := by
  intro fuel
  induction fuel with
  | zero => intro k h1 h2; omega
  | succ f ih =>
    intro k h1 h2
    rw [eqLower]
    by_cases hk : k < name.length
    · rw [if_pos hk]
      by_cases ha : toLower (m (p + k)) = toLower (name.getD k 0)
      · rw [if_neg (by simpa using ha)]
        obtain ⟨b, e, hb⟩ := ih (k + 1) (by omega) (by omega)
        refine ⟨b, e, hb.trans ⟨fun h i h3 h4 => ?_, fun h i h3 h4 => h i (by omega) h4⟩⟩
        by_cases hik : i = k
        · rw [hik]; exact ha
        · exact h i (by omega) h4
      · rw [if_pos ha]
        exact ⟨false, rfl, by simp; exact ⟨k, Nat.le_refl _, hk, by simpa using ha⟩⟩
    · rw [if_neg hk]
      exact ⟨true, rfl, by simp; intro i h3 h4; omega⟩

theorem map_range_eq_iff (f : Nat → UInt8) (g : UInt8 → UInt8) (name : Bytes) :
    ((List.range name.length).map f).map g = name.map g ↔ ∀ i < name.length, g (f i) = g (name.getD i 0) := by
  constructor
  · intro h i hi
    have h1 := congrArg (fun l => l[i]?) h
    simp only [List.getElem?_map, List.getElem?_range hi, Option.map_some] at h1
    rw [List.getElem?_eq_getElem hi] at h1
    simpa [List.getD, List.getElem?_eq_getElem hi] using h1
  · intro h
    apply List.ext_getElem?
    intro i
    by_cases hi : i < name.length
    · simp only [List.getElem?_map, List.getElem?_range hi, Option.map_some]
      rw [List.getElem?_eq_getElem hi]
      have := h i hi
      simpa [List.getD, List.getElem?_eq_getElem hi] using this
    · rw [List.getElem?_eq_none (by simp; omega), List.getElem?_eq_none (by simp; omega)]

/-- **C49** `CStringEqualNoCase` on the bytes of the arena, eight bytes at a time: it compares the stored text with the name, ignoring the case of ASCII letters; two empty
texts make it panic. -/
theorem eqNoCase_exact (m : Mem) (p : Nat) (name : Bytes) (hp : p ≠ 0) :
    if name = [] ∧ readStr m p = [] then bEqNoCase m p name = .panic
    else ∃ b, bEqNoCase m p name = .ok b ∧ (b = true ↔ (readStr m p).map asciiLower = name.map asciiLower) := by
  have hrl : (readStr m p).length = strlen m p := by simp [readStr]
  unfold bEqNoCase
  rw [if_neg hp]
  by_cases hl : name.length = strlen m p
  · rw [if_neg (show ¬ name.length ≠ strlen m p by omega)]
    by_cases h0 : name.length = 0
    · rw [if_pos h0, if_pos ⟨List.length_eq_zero_iff.1 h0, List.length_eq_zero_iff.1 (by omega)⟩]
    · rw [if_neg h0, if_neg (fun h => h0 (by rw [h.1]; rfl))]
      obtain ⟨k, e1, hk, h1⟩ := eqWords_spec m p name (name.length + 1) 0 rfl (by omega) (by omega) (by omega)
      obtain ⟨k', e2, hk', h2⟩ := eqBytes_spec m p name (name.length + 1) k hk (by omega) h1
      obtain ⟨b, e3, h3⟩ := eqLower_spec m p name (name.length + 1) k' hk' (by omega)
      rw [e1]; dsimp only
      rw [e2]; dsimp only
      refine ⟨b, e3, h3.trans ?_⟩
      unfold readStr
      rw [← hl, map_range_eq_iff]
      simp only [toLower_eq]
      constructor
      · intro h i hi
        by_cases hik : i < k'
        · rw [h2 i hik]
        · exact h i (by omega) hi
      · exact fun h i _ hi => h i hi
  · rw [if_neg (show ¬ (name = [] ∧ readStr m p = []) from fun h => hl (by rw [← hrl, h.1, h.2])), if_pos hl]
    refine ⟨false, rfl, ?_⟩
    simp only [Bool.false_eq_true, false_iff]
    intro h
    have := congrArg List.length h
    simp only [List.length_map] at this
    omega

/-- **C49** so it is the comparison of the value model wherever that is used: with a name that is not empty, or a text that is not -/
theorem eqNoCase_value (m : Mem) (p : Nat) (name : Bytes) (hp : p ≠ 0) (h : name ≠ [] ∨ readStr m p ≠ []) :
    bEqNoCase m p name = .ok (strEqNoCase (some (readStr m p)) name) ∧ bEqNoCase m 0 name = .ok (strEqNoCase none name) := by
  refine ⟨?_, rfl⟩
  have := eqNoCase_exact m p name hp
  rw [if_neg (fun hn => h.elim (fun h => h hn.1) (fun h => h hn.2))] at this
  obtain ⟨b, e, hb⟩ := this
  rw [e]
  congr 1
  rw [Bool.eq_iff_iff, hb, strEqNoCase_iff]

/-- **C49** `HasPrefixNoCase` of a text that lies in the arena (with 16 bit addresses): the text begins with the prefix, ignoring the case of ASCII letters -/
theorem hasPrefix_exact (m : Mem) (cap p : Nat) (pre : Bytes) (hin : p + strlen m p ≤ cap) (hc : cap < 65536) :
    ∃ b, bHasPrefixNoCase m cap p pre = .ok b ∧ (b = true ↔ ∃ x y, readStr m p = x ++ y ∧ x.map asciiLower = pre.map asciiLower) := by
  refine ⟨strHasPrefixNoCase (readStr m p) pre, ?_, strHasPrefixNoCase_iff _ _⟩
  have hrl : (readStr m p).length = strlen m p := by simp [readStr]
  unfold bHasPrefixNoCase strHasPrefixNoCase
  rw [hrl]
  by_cases h : strlen m p < pre.length
  · rw [if_pos h, if_pos h]
  · rw [if_neg h, if_neg h]
    dsimp only
    rw [u16_id (show pre.length < 65536 by omega), u16_id (show p + pre.length < 65536 by omega), if_neg (by omega), show p + pre.length - p = pre.length by omega]
    congr 2
    unfold readStr
    rw [← List.map_take, List.take_range, Nat.min_eq_left (by omega), List.map_map]
    rfl

/-! ## Setting a host -/

theorem rd16_putU16 (m : Mem) (i n : Nat) (h : n < 65536) : (putU16 m i n i).toNat + 256 * (putU16 m i n (i + 1)).toNat = n := by
  have := strlen_putU16 m i n h
  rw [strlen, if_neg (by omega)] at this
  simpa using this

/-- a setter of the host at `this` that needs `need` bytes: afterwards `v` is written for the host and of the old bytes only `id` and `data` have changed; without memory it
returns false and changes nothing -/
def HostSet (net : Net) (this : Nat) (v : Bytes) (need : Nat) (c : BCtx) (r : Out (Option Unit × BCtx)) : Prop :=
  if c.a.used + need ≤ c.a.cap then
    ∃ c', r = .ok (some (), c') ∧ E.host net this c'.a.mem = .ok v ∧ c'.a.used = c.a.used + need ∧
      ∀ i < c.a.used, i ≠ this → i ≠ this + 4 → i ≠ this + 5 → c'.a.mem i = c.a.mem i
  else ∃ c', r = .ok (none, c') ∧ c'.a.used = c.a.used ∧ ∀ i < c.a.used, c'.a.mem i = c.a.mem i

theorem host_eval (net : Net) (this d : Nat) (id : UInt8) (m : Mem) (h1 : m this = id) (h2 : (m (this + 4)).toNat + 256 * (m (this + 5)).toNat = d) :
    E.host net this m =
      if id = 1 then .ok (writeByteAsString (m d) ++ [0x2e] ++ writeByteAsString (m (d + 1)) ++ [0x2e] ++ writeByteAsString (m (d + 2)) ++ [0x2e] ++ writeByteAsString (m (d + 3)))
      else if id = 2 then .ok ([0x5b] ++ net.ipString ((List.range 16).map fun i => m (d + i)) ++ [0x5d])
      else if id = 3 then .ok (readStr m d) else .ok (str "unknown host") := by
  unfold E.host E.u8 E.u16
  dsimp only
  rw [h1, h2]
  split
  · rfl
  · split
    · rfl
    · split <;> rfl

/-- **C49** SetHostname -/
theorem setHostname_exact (net : Net) (this : Nat) (name : Bytes) (c : BCtx) (hc : Fine c) (hn : name.length < 2147483648) (ht : this + 6 ≤ c.a.used) :
    HostSet net this name (2 + name.length) c (B.setHostname this name c) := by
  obtain ⟨h1, h2, h3, h4⟩ := hc
  obtain ⟨p, b, e, hs, h⟩ := StoredStr.allocStr c name h2 h3 (by omega) hn
  have er : B.allocStr name c = if p = 0 then .ok (none, b) else .ok (some p, b) := by unfold B.allocStr; rw [e]
  unfold HostSet
  by_cases hr : c.a.used + (2 + name.length) ≤ c.a.cap
  · rw [if_pos hr]
    rw [if_pos (by omega)] at h
    obtain ⟨h5, h6, h7⟩ := h
    rw [if_neg (by omega)] at er
    have hu : b.a.used = c.a.used + (2 + name.length) := by
      have := congrArg Ctx.used h7
      have h8 : b.a.used = c.a.used + 2 + name.length := this
      omega
    refine ⟨b.setMem (putU16 (upd b.a.mem this 3) (this + 4) p), ?_, ?_, hu, fun i hi g1 g2 g3 => ?_⟩
    · show (B.allocStr name >>= fun a => B.put8 this 3 >>= fun _ => B.put16 (this + 4) a) c = _
      exact (B.bind_run_some _ er).trans rfl
    · refine (host_eval net this p 3 _ ?_ ?_).trans ?_
      · show putU16 _ _ _ this = 3
        rw [putU16_other _ _ _ _ (by omega), upd, if_pos rfl]
      · exact rd16_putU16 _ _ _ (by omega)
      · rw [if_neg (by decide), if_neg (by decide), if_pos rfl, ← h6]
        have hl : strlen b.a.mem p = name.length := by rw [← h6]; simp [readStr]
        rw [(readStr_congr b.a.mem _ p (by omega) (fun i hi _ => ?_)).2]
        show putU16 _ _ _ i = _
        rw [putU16_other _ _ _ _ (by omega), upd, if_neg (by omega)]
    · show putU16 _ _ _ i = _
      rw [putU16_other _ _ _ _ (by omega), upd, if_neg (by omega)]
      exact hs.1 i hi
  · rw [if_neg hr]
    rw [if_neg (by omega)] at h
    rw [if_pos h.1] at er
    refine ⟨b, ?_, congrArg Ctx.used h.2, hs.1⟩
    show (B.allocStr name >>= fun a => B.put8 this 3 >>= fun _ => B.put16 (this + 4) a) c = _
    exact B.bind_run_none _ er

theorem allocRaw_run (n : Nat) (c : BCtx) (hc : Fine c) (hn : n < 2147483648) (h0 : 0 < n) :
    ∃ b, B.allocRaw n c = (if c.a.used + n ≤ c.a.cap then .ok (some c.a.used, b) else .ok (none, b)) ∧ b.a.cap = c.a.cap ∧ b.a.mem = c.a.mem ∧
      b.a.used = if c.a.used + n ≤ c.a.cap then c.a.used + n else c.a.used := by
  obtain ⟨h1, h2, h3, h4⟩ := hc
  unfold B.allocRaw
  dsimp only
  rw [alloc_spec c.a n (by omega)]
  by_cases hr : c.a.used + n ≤ c.a.cap
  · rw [if_neg (show ¬ (n = 0 ∨ c.a.used + n > c.a.cap) by omega), if_pos hr]
    dsimp only
    rw [u16_id (show c.a.used < 65536 by omega), if_neg (by omega)]
    simp only [if_pos hr]
    exact ⟨_, rfl, rfl, rfl, rfl⟩
  · rw [if_pos (show n = 0 ∨ c.a.used + n > c.a.cap by omega), if_neg hr]
    simp only [if_neg hr]
    exact ⟨_, rfl, rfl, rfl, rfl⟩

/-- the bytes that end up in a block of `n` bytes at the memory mark of `c`: those of the argument, and what was there before where the argument is shorter -/
def blockByte (c : BCtx) (ip : Bytes) (i : Nat) : UInt8 := if i < ip.length then ip.getD i 0 else c.a.mem (c.a.used + i)

theorem setIp_run (net : Net) (this n : Nat) (t : UInt8) (ip : Bytes) (c : BCtx) (hc : Fine c) (ht : this + 6 ≤ c.a.used) (h0 : 0 < n) (hn : n < 2147483648)
    (v : Bytes) (hv : ∀ m, m this = t → (m (this + 4)).toNat + 256 * (m (this + 5)).toNat = c.a.used → (∀ i < n, m (c.a.used + i) = blockByte c ip i) →
      E.host net this m = .ok v) :
    HostSet net this v n c ((B.allocRaw n >>= fun a => B.copyTo a n ip >>= fun _ => B.put8 this t >>= fun _ => B.put16 (this + 4) a) c) := by
  obtain ⟨b, e3, e1, e2, e4⟩ := allocRaw_run n c hc hn h0
  obtain ⟨h1, h2, h3, h4⟩ := hc
  unfold HostSet
  by_cases hr : c.a.used + n ≤ c.a.cap
  · rw [if_pos hr]
    rw [if_pos hr] at e3 e4
    refine ⟨b.setMem (putU16 (upd (fun i => if c.a.used ≤ i ∧ i < c.a.used + n ∧ i < c.a.used + ip.length then ip.getD (i - c.a.used) 0 else b.a.mem i) this t) (this + 4) c.a.used),
      ?_, ?_, e4, fun i hi g1 g2 g3 => ?_⟩
    · exact (B.bind_run_some _ e3).trans rfl
    · refine hv _ ?_ ?_ (fun i hi => ?_)
      · show putU16 _ _ _ this = t
        rw [putU16_other _ _ _ _ (by omega), upd, if_pos rfl]
      · exact rd16_putU16 _ _ _ (by omega)
      · show putU16 _ _ _ (c.a.used + i) = _
        rw [putU16_other _ _ _ _ (by omega), upd, if_neg (by omega)]
        unfold blockByte
        by_cases hl : i < ip.length
        · rw [if_pos (by omega), if_pos hl]; congr 1; omega
        · rw [if_neg (by omega), if_neg hl, e2]
    · show putU16 _ _ _ i = _
      rw [putU16_other _ _ _ _ (by omega), upd, if_neg (by omega), if_neg (by omega), e2]
  · rw [if_neg hr]
    rw [if_neg hr] at e3 e4
    refine ⟨b, ?_, e4, fun i _ => by rw [e2]⟩
    exact B.bind_run_none _ e3

/-- **C49** SetIpv4: the first four bytes of the argument are taken; for a shorter argument the text shows whatever the arena held before (an argument of 16 bytes - the form
`net.ParseIP` gives - is cut to four). -/
theorem setIpv4_exact (net : Net) (this : Nat) (ip : Bytes) (c : BCtx) (hc : Fine c) (ht : this + 6 ≤ c.a.used) :
    HostSet net this ((Host.ipv4 (blockByte c ip 0) (blockByte c ip 1) (blockByte c ip 2) (blockByte c ip 3)).encode net) 4 c (B.setIpv4 this ip c) := by
  refine setIp_run net this 4 1 ip c hc ht (by omega) (by omega) _ (fun m h1 h2 h3 => ?_)
  rw [host_eval net this _ 1 m h1 h2, if_pos rfl, ← h3 0 (by omega), ← h3 1 (by omega), ← h3 2 (by omega), ← h3 3 (by omega)]
  rfl

/-- **C49** SetIpv6 -/
theorem setIpv6_exact (net : Net) (this : Nat) (ip : Bytes) (c : BCtx) (hc : Fine c) (ht : this + 6 ≤ c.a.used) (hl : ip.length = 16) :
    HostSet net this ((Host.ipv6 ip).encode net) 16 c (B.setIpv6 this ip c) := by
  refine setIp_run net this 16 2 ip c hc ht (by omega) (by omega) _ (fun m h1 h2 h3 => ?_)
  rw [host_eval net this _ 2 m h1 h2, if_neg (by decide), if_pos rfl]
  have : (List.range 16).map (fun i => m (c.a.used + i)) = ip := by
    apply List.ext_getElem?
    intro i
    by_cases hi : i < 16
    · rw [List.getElem?_map, List.getElem?_range hi, Option.map_some, h3 i hi, blockByte, if_pos (by omega), List.getElem?_eq_getElem (by omega)]
      simp [List.getD, List.getElem?_eq_getElem (show i < ip.length by omega)]
    · rw [List.getElem?_eq_none (by simp; omega), List.getElem?_eq_none (by omega)]
  rw [this]
  rfl

/-- **C49** SetPort: the host stays, the port is written behind it; of all the memory only `hasPort` and `port` change -/
theorem setPort_exact (net : Net) (this port : Nat) (hp : port < 65536) (v : HostPort) (c : BCtx) (hc : Fine c) (S : Nat → Prop)
    (h : (hostPortAt this v).holds c.a.mem S) (hS : ∀ i, S i → i < c.a.used) :
    ∃ c', B.setPort this port c = .ok (some (), c') ∧ (hostPortAt this { v with port := some port }).holds c'.a.mem S ∧
      E.hostPort net this c'.a.mem = .ok (v.host.encode net ++ 0x3a :: encodeUInt port) ∧
      c'.a.used = c.a.used ∧ ∀ i, i ≠ this + 1 → i ≠ this + 2 → i ≠ this + 3 → c'.a.mem i = c.a.mem i := by
  have hm : ∀ i, i ≠ this + 1 → i ≠ this + 2 → i ≠ this + 3 → putU16 (upd c.a.mem (this + 1) 1) (this + 2) port i = c.a.mem i := by
    intro i g1 g2 g3
    rw [putU16_other _ _ _ _ (by omega), upd, if_neg (by omega)]
  have hh : (hostPortAt this { v with port := some port }).holds (putU16 (upd c.a.mem (this + 1) 1) (this + 2) port) S := by
    obtain ⟨S1, S2, k1, k2, k3, k4⟩ := h
    have hd : ∃ (w : UInt8) (n : Nat), (u8At (this + 1) w ∗ u16At (this + 2) n).holds c.a.mem S2 := by
      cases hv : v.port with
      | none => rw [hv] at k4; exact ⟨_, _, k4⟩
      | some p => rw [hv] at k4; exact ⟨_, _, k4⟩
    obtain ⟨w, n, T1, T2, j1, j2, j3, j4⟩ := hd
    obtain ⟨g1, g2, g3, g4⟩ := u16At_holds.1 j4
    have hT1 : ∀ i, T1 i ↔ i = this + 1 := fun i => by
      have := j3.1 i
      simp only [List.length_singleton] at this
      exact this.trans (by omega)
    refine ⟨S1, S2, k1, k2, Asrt.loc _ k3 (fun i hi => hm i ?_ ?_ ?_), T1, T2, j1, j2, ⟨j3.1, fun j hj => ?_⟩, u16At_holds.2 ⟨hp, g2, ?_, ?_⟩⟩
    · rintro rfl; exact k2 _ ⟨hi, (j1 _).2 (.inl ((hT1 _).2 rfl))⟩
    · rintro rfl; exact k2 _ ⟨hi, (j1 _).2 (.inr ((g2 _).2 (by omega)))⟩
    · rintro rfl; exact k2 _ ⟨hi, (j1 _).2 (.inr ((g2 _).2 (by omega)))⟩
    · simp only [List.length_singleton] at hj
      rw [putU16_other _ _ _ _ (by omega), show j = 0 by omega, upd, if_pos rfl]
      rfl
    · unfold putU16 upd; rw [if_neg (by omega), if_pos rfl, u16_id hp]
    · unfold putU16 upd; rw [if_pos rfl, u16_id hp]
  refine ⟨c.setMem (putU16 (upd c.a.mem (this + 1) 1) (this + 2) port), rfl, hh, ?_, rfl, hm⟩
  exact shows_hostPort net this _ _ S hh (fun i hi => by have := hS i hi; have h1 := hc.1; have h2 := hc.2.2.1; omega)

/-! ## Known parameters without memory -/

/-- the bytes of the field of two bytes at `a` -/
def rd16 (m : Mem) (a : Nat) : Nat := (m a).toNat + 256 * (m (a + 1)).toNat

/-- **C49** SetKnownParams as modelled everywhere else (`B.setKnown`) is the compiled one, unless there is no memory for the array (where that model says panic). -/
theorem setKnown_compiled (names : List Bytes) (on : Flags → Bool) (field name param i : Nat) (c : BCtx) (hon : on c.abs.flags = true)
    (hi : knownIndex names (readStr c.a.mem name) = some i) :
    B.setKnown names on field name param c = .panic ∨
    B.setKnown names on field name param c = (B.setKnownRaw names.length i field param >>= fun _ => (pure true : B Bool)) c := by
  have e : B.setKnown names on field name param c = (B.get16 field >>= fun k => if k = 0 then do
      let k ← B.allocMust (2 * names.length)
      B.put16 field k
      B.put16 (k + 2 * i) param
      pure true
    else do
      B.put16 (k + 2 * i) param
      pure true : B Bool) c := by
    unfold B.setKnown
    show (if (!on c.abs.flags) = true then (pure false : B Bool) else _) c = _
    rw [hon]
    show (match knownIndex names (readStr c.a.mem name) with
      | none => (pure false : B Bool)
      | some i => _) c = _
    rw [hi]
  rw [e]
  have hg : B.get16 field c = .ok (some (rd16 c.a.mem field), c) := rfl
  rw [B.bind_run_some _ hg]
  by_cases hk : rd16 c.a.mem field = 0
  · rw [if_pos hk]
    have er : B.setKnownRaw names.length i field param c = (match c.a.allocWithClear (2 * names.length) with
      | .ok (a, p) => (do B.put16 field p; B.put16 (p + 2 * i) param : B Unit) { c with a := a }
      | .panic => .panic
      | .hang => .hang) := by
      unfold B.setKnownRaw
      exact if_neg (fun h => h hk)
    have em : B.allocMust (2 * names.length) c = (match B.alloc (2 * names.length) c with
      | .ok (none, _) => .panic
      | r => r) := rfl
    rcases ha : c.a.allocWithClear (2 * names.length) with ⟨a, p⟩ | _ | _
    · rw [ha] at er
      dsimp only at er
      have eb : B.alloc (2 * names.length) c = if p = 0 then .ok (none, { c with a := a }) else .ok (some p, { c with a := a }) := by unfold B.alloc; rw [ha]
      by_cases hp : p = 0
      · rw [if_pos hp] at eb
        rw [eb] at em
        exact .inl (B.bind_run_panic _ em)
      · rw [if_neg hp] at eb
        rw [eb] at em
        right
        rw [B.bind_run_some _ em]
        rw [B.bind_run_some _ (er.trans rfl)]
        rfl
    · rw [ha] at er
      have eb : B.alloc (2 * names.length) c = .panic := by unfold B.alloc; rw [ha]
      rw [eb] at em
      exact .inl (B.bind_run_panic _ em)
    · rw [ha] at er
      have eb : B.alloc (2 * names.length) c = .hang := by unfold B.alloc; rw [ha]
      rw [eb] at em
      right
      rw [B.bind_run_hang _ em, B.bind_run_hang _ er]
  · rw [if_neg hk]
    have er : B.setKnownRaw names.length i field param c = B.put16 (rd16 c.a.mem field + 2 * i) param c := by
      unfold B.setKnownRaw
      exact if_pos hk
    right
    rw [B.bind_run_some _ (er.trans rfl)]
    rfl

/-- **C49** (fault) … and there the library goes on as if nothing had happened: the parameter is not stored, the field stays nil, and the address of the parameter is
written over the beginning of the arena, in bytes 2i and 2i+1; from the fifth name on these belong to the first object in the arena. -/
theorem known_param_lost (n i field param : Nat) (c : BCtx) (hc : Fine c) (hn : 0 < n ∧ n < 1000) (hp : param < 65536)
    (hf : 8 ≤ field) (hfi : field + 1 < 2 * i ∨ 2 * i + 1 < field) (hk : rd16 c.a.mem field = 0) (hr : c.a.cap < c.a.used + 2 * n) :
    ∃ c', B.setKnownRaw n i field param c = .ok (some (), c') ∧ rd16 c'.a.mem field = 0 ∧ rd16 c'.a.mem (2 * i) = param ∧ c'.a.used = c.a.used ∧
      ∀ j, j ≠ 2 * i → j ≠ 2 * i + 1 → c'.a.mem j = if j = field ∨ j = field + 1 then 0 else c.a.mem j := by
  obtain ⟨h1, h2, h3, h4⟩ := hc
  unfold B.setKnownRaw
  dsimp only
  rw [if_neg (show ¬ (c.a.mem field).toNat + 256 * (c.a.mem (field + 1)).toNat ≠ 0 from fun h => h hk), allocWithClear_spec c.a (2 * n) (by omega),
    if_pos (by omega)]
  have h0 : putU16 c.a.mem field 0 field = 0 ∧ putU16 c.a.mem field 0 (field + 1) = 0 := by
    unfold putU16 upd
    rw [u16_id (by omega), if_neg (by omega), if_pos rfl, if_pos rfl]
    exact ⟨rfl, rfl⟩
  refine ⟨_, rfl, ?_, ?_, rfl, fun j g1 g2 => ?_⟩
  · show rd16 (putU16 (putU16 c.a.mem field 0) (0 + 2 * i) param) field = 0
    unfold rd16
    rw [putU16_other _ _ _ field (by omega), putU16_other _ _ _ (field + 1) (by omega), h0.1, h0.2]
    rfl
  · show rd16 (putU16 (putU16 c.a.mem field 0) (0 + 2 * i) param) (2 * i) = param
    rw [Nat.zero_add]
    exact rd16_putU16 _ _ _ hp
  · show putU16 (putU16 c.a.mem field 0) (0 + 2 * i) param j = _
    rw [putU16_other _ _ _ _ (by omega)]
    by_cases hj : j = field ∨ j = field + 1
    · rw [if_pos hj]
      rcases hj with rfl | rfl
      · exact h0.1
      · exact h0.2
    · rw [if_neg hj, putU16_other _ _ _ _ (by omega)]

/-! ## Samples -/

/-- an arena with 40 of 64 bytes in use -/
def primSample : BCtx := { src := [], a := { stat := {}, used := 40, cap := 64, mem := fun i => UInt8.ofNat i } }

theorem primSample_fine : Fine primSample := by unfold Fine primSample; decide

/-- the hypotheses are met: a host name and then a port; an address of the 16 byte form cut to four bytes; the sixth known parameter of a URI written over the first object -/
theorem prim_samples :
    (match (do B.setHostname 20 (str "a.org"); B.setPort 20 5060 : B Unit) primSample with
     | .ok (some _, c) => E.hostPort Net.sample 20 c.a.mem | _ => .hang) = .ok (str "a.org:5060") ∧
    (match B.setIpv4 20 ([0, 0, 0, 0, 0, 0, 0, 0, 0, 0, 255, 255, 10, 1, 2, 3]) primSample with
     | .ok (some _, c) => E.host Net.sample 20 c.a.mem | _ => .hang) = .ok (str "0.0.0.0") ∧
    (match B.setIpv4 20 [10, 1, 2] primSample with | .ok (some _, c) => E.host Net.sample 20 c.a.mem | _ => .hang) = .ok (str "10.1.2.43") ∧
    bEqNoCase (storeBytes (putU16 (fun _ => 0) 10 20) 12 (str "Proxy-Authentication")) 12 (str "proxy-authentication") = .ok true ∧
    bEqNoCase (fun _ => 0) 12 [] = .panic ∧
    (match B.setKnownRaw 6 5 30 0x1234 { primSample with a := { primSample.a with used := 60, mem := fun i => if i = 30 ∨ i = 31 then 0 else 7 } } with
     | .ok (some _, c) => (c.a.mem 10, c.a.mem 11, c.a.mem 30) | _ => (0, 0, 1)) = (0x34, 0x12, 0) := by
  refine ⟨?_, ?_, ?_, ?_, ?_, ?_⟩ <;> decide +kernel

end Sip
