import Verif.Lemmas.Arena
/-!
# Properties C01 – C05: the arena

Specification vocabulary (independent of how the allocator is coded):
* a *history* is a list of client calls; `Hist P a ops` says that every call satisfies `P` in the state it is made in;
* the *client's view* of live blocks: a block `(p, n)` is live from the call that returned pointer `p ≠ nil` for a request
  of `n` bytes until a `FreeAll`, or a `FreePart(remain)` that does not keep it.
-/
namespace Sip

/-- Every call of the history satisfies `P` in the state in which it is made. -/
def Hist (P : Arena → MemOp → Prop) : Arena → List MemOp → Prop
  | _, [] => True
  | a, op :: ops => P a op ∧ ∀ a1 r, op.run a = .ok (a1, r) → Hist P a1 ops

/-- The call does not overflow uint32. -/
def NoWrap (a : Arena) : MemOp → Prop
  | .alloc n | .allocEx n | .allocWithClear n => a.used + n < 4294967296
  | .freeAll => True
  | .freePart r => r + 8 < 4294967296

/-- The call does not overflow, and `FreePart` is given a mark that is not in the 7 bytes after `Used()`. -/
def Sane (a : Arena) (op : MemOp) : Prop :=
  NoWrap a op ∧ match op with
    | .freePart r => r ≤ a.usedBytes ∨ a.usedBytes + 8 ≤ r
    | _ => True

instance (a : Arena) (op : MemOp) : Decidable (NoWrap a op) := by
  cases op <;> unfold NoWrap <;> infer_instance
instance (a : Arena) (op : MemOp) : Decidable (Sane a op) := by
  cases op <;> unfold Sane <;> infer_instance
instance histDec (P : Arena → MemOp → Prop) [∀ a op, Decidable (P a op)] : (a : Arena) → (ops : List MemOp) → Decidable (Hist P a ops)
  | _, [] => isTrue trivial
  | a, op :: ops =>
    match h : op.run a with
    | .ok (a1, r) =>
      have := histDec P a1 ops
      decidable_of_iff (P a op ∧ Hist P a1 ops)
        ⟨fun ⟨x, y⟩ => ⟨x, fun a2 r2 h2 => by rw [h] at h2; cases h2; exact y⟩, fun ⟨x, y⟩ => ⟨x, y a1 r h⟩⟩
    | .panic => decidable_of_iff (P a op) ⟨fun x => ⟨x, fun a2 r2 h2 => by rw [h] at h2; cases h2⟩, fun x => x.1⟩
    | .hang => decidable_of_iff (P a op) ⟨fun x => ⟨x, fun a2 r2 h2 => by rw [h] at h2; cases h2⟩, fun x => x.1⟩

/-- Bookkeeping of a client: blocks it may still use, as (pointer, requested size). -/
def liveStep (live : List (Nat × Nat)) (op : MemOp) (ret : Nat) : List (Nat × Nat) :=
  match op with
  | .alloc n | .allocEx n | .allocWithClear n => if ret ≠ 0 then (ret, n) :: live else live
  | .freeAll => []
  | .freePart r => live.filter fun b => b.1 + b.2 ≤ 8 + r

/-- The live blocks after a history, given what each call returned. -/
def liveBlocks : List (Nat × Nat) → List MemOp → List Nat → List (Nat × Nat)
  | live, op :: ops, r :: rs => liveBlocks (liveStep live op r) ops rs
  | live, _, _ => live

/-- Two byte ranges have no byte in common. -/
def Disjoint (b c : Nat × Nat) : Prop := ∀ i, ¬ ((b.1 ≤ i ∧ i < b.1 + b.2) ∧ (c.1 ≤ i ∧ i < c.1 + c.2))

/-! ## helper: no step panics, what a step does -/

theorem run_ok (a : Arena) (op : MemOp) (h : NoWrap a op) : ∃ a1 r, op.run a = .ok (a1, r) := by
  cases op with
  | alloc n => exact ⟨_, _, rfl⟩
  | allocEx n => exact ⟨_, _, rfl⟩
  | allocWithClear n =>
    have hw : a.used + n < 4294967296 := h
    simp only [MemOp.run, allocWithClear_spec a n hw]
    exact ⟨_, _, rfl⟩
  | freeAll => exact ⟨_, _, rfl⟩
  | freePart r => exact ⟨_, _, rfl⟩

theorem run_cap (a : Arena) (op : MemOp) (h : NoWrap a op) (a1 : Arena) (r : Nat) (hr : op.run a = .ok (a1, r)) :
    a1.cap = a.cap := by
  cases op with
  | alloc n =>
    have hw : a.used + n < 4294967296 := h
    simp only [MemOp.run, alloc_spec a n hw, Out.ok.injEq] at hr
    split at hr <;> cases hr <;> rfl
  | allocEx n =>
    have hw : a.used + n < 4294967296 := h
    simp only [MemOp.run, allocEx_spec a n hw, alloc_spec a n hw, Out.ok.injEq] at hr
    split at hr <;> cases hr <;> rfl
  | allocWithClear n =>
    have hw : a.used + n < 4294967296 := h
    simp only [MemOp.run, allocWithClear_spec a n hw, alloc_spec a n hw, Out.ok.injEq] at hr
    split at hr <;> cases hr <;> rfl
  | freeAll => simp only [MemOp.run, Out.ok.injEq] at hr; cases hr; rfl
  | freePart r =>
    have hw : r + 8 < 4294967296 := h
    simp only [MemOp.run, freePart_spec a r hw, Out.ok.injEq] at hr; cases hr; rfl

/-- size of the request of an allocation call -/
def MemOp.size? : MemOp → Option Nat
  | .alloc n | .allocEx n | .allocWithClear n => some n
  | _ => none

/-- Effect of an allocation call on `used` and its result. -/
theorem run_alloc (a : Arena) (op : MemOp) (n : Nat) (hn : op.size? = some n) (h : NoWrap a op) (a1 : Arena) (r : Nat)
    (hr : op.run a = .ok (a1, r)) :
    ((n = 0 ∨ a.cap < a.used + n) ∧ r = 0 ∧ a1.used = a.used ∧ a1.mem = a.mem) ∨
    (0 < n ∧ a.used + n ≤ a.cap ∧ r = u16 a.used ∧ a1.used = a.used + n ∧
      (∀ i, ¬ (a.used ≤ i ∧ i < a.used + n) → a1.mem i = a.mem i) ∧
      ((∃ k, op = .allocWithClear k) → ∀ i, a.used ≤ i → i < a.used + n → a1.mem i = 0)) := by
  cases op with
  | alloc m =>
    simp only [MemOp.size?, Option.some.injEq] at hn; subst hn
    have hw : a.used + m < 4294967296 := h
    simp only [MemOp.run, alloc_spec a m hw, Out.ok.injEq] at hr
    split at hr <;> rename_i hc <;> cases hr
    · left; exact ⟨hc, rfl, rfl, rfl⟩
    · right; refine ⟨by omega, by omega, rfl, rfl, fun _ _ => rfl, ?_⟩
      rintro ⟨k, hk⟩; cases hk
  | allocEx m =>
    simp only [MemOp.size?, Option.some.injEq] at hn; subst hn
    have hw : a.used + m < 4294967296 := h
    simp only [MemOp.run, allocEx_spec a m hw, alloc_spec a m hw, Out.ok.injEq] at hr
    split at hr <;> rename_i hc <;> cases hr
    · left; exact ⟨hc, rfl, rfl, rfl⟩
    · right; refine ⟨by omega, by omega, rfl, rfl, fun _ _ => rfl, ?_⟩
      rintro ⟨k, hk⟩; cases hk
  | allocWithClear m =>
    simp only [MemOp.size?, Option.some.injEq] at hn; subst hn
    have hw : a.used + m < 4294967296 := h
    simp only [MemOp.run, allocWithClear_spec a m hw, alloc_spec a m hw, Out.ok.injEq] at hr
    split at hr <;> rename_i hc <;> cases hr
    · left; exact ⟨hc, rfl, rfl, rfl⟩
    · right
      refine ⟨by omega, by omega, rfl, by simp, ?_, ?_⟩
      · intro i hi; simp only [Arena.zero]; rw [if_neg hi]
      · intro _ i h1 h2; simp only [Arena.zero]; rw [if_pos ⟨h1, h2⟩]
  | freeAll => simp [MemOp.size?] at hn
  | freePart r => simp [MemOp.size?] at hn

/-- Effect of a free. -/
theorem run_free (a : Arena) (op : MemOp) (hn : op.size? = none) (h : NoWrap a op) (a1 : Arena) (r : Nat)
    (hr : op.run a = .ok (a1, r)) :
    a1.mem = a.mem ∧ a1.used = (match op with | .freePart m => if m ≥ a.used then a.used else m + 8 | _ => 8) := by
  cases op with
  | freeAll => simp only [MemOp.run, Out.ok.injEq] at hr; cases hr; exact ⟨rfl, rfl⟩
  | freePart m =>
    have hw : m + 8 < 4294967296 := h
    simp only [MemOp.run, freePart_spec a m hw, Out.ok.injEq] at hr; cases hr; exact ⟨rfl, rfl⟩
  | alloc m => simp [MemOp.size?] at hn
  | allocEx m => simp [MemOp.size?] at hn
  | allocWithClear m => simp [MemOp.size?] at hn

/-- arena invariant -/
def Arena.Inv (a : Arena) : Prop := 8 ≤ a.used ∧ a.used ≤ a.cap ∧ a.cap < 4294967296
instance (a : Arena) : Decidable a.Inv := by unfold Arena.Inv; infer_instance

theorem inv_step (a : Arena) (op : MemOp) (ha : a.Inv) (hs : Sane a op) (a1 : Arena) (r : Nat)
    (hr : op.run a = .ok (a1, r)) : a1.Inv ∧ a1.cap = a.cap := by
  obtain ⟨h1, h2, h3⟩ := ha
  have hc := run_cap a op hs.1 a1 r hr
  refine ⟨?_, hc⟩
  unfold Arena.Inv
  rw [hc]
  cases hz : op.size? with
  | some n =>
    rcases run_alloc a op n hz hs.1 a1 r hr with h | h <;> omega
  | none =>
    have := (run_free a op hz hs.1 a1 r hr).2
    cases op with
    | freeAll => simp only at this; omega
    | freePart m =>
      have h4 := hs.2
      simp only [Arena.usedBytes, prefixLen, u32] at h4
      simp only at this
      split at this <;> omega
    | alloc m => simp [MemOp.size?] at hz
    | allocEx m => simp [MemOp.size?] at hz
    | allocWithClear m => simp [MemOp.size?] at hz

/-! ## C01 -/

/-- **C01** For every capacity and every history of calls that neither overflow uint32 nor give `FreePart` a mark in
the 7 bytes above `Used()`: the history runs without panic and afterwards `Used() ≤ Capacity()` and
`Used() + Left() = Capacity()`.
For the two excluded kinds of call the claim is false of the code (`freePart_grows_past_capacity`, `alloc_wraps`). -/
theorem arena_bounds (capacity : Nat) (hcap : capacity + 8 < 4294967296) (ops : List MemOp)
    (h : Hist Sane (Arena.new capacity) ops) :
    ∃ a rs, runOps (Arena.new capacity) ops = .ok (a, rs) ∧ rs.length = ops.length ∧
      a.capacity = capacity ∧ a.usedBytes ≤ capacity ∧ a.usedBytes + a.left = capacity := by
  have key : ∀ (ops : List MemOp) (a0 : Arena), a0.Inv → Hist Sane a0 ops →
      ∃ a rs, runOps a0 ops = .ok (a, rs) ∧ rs.length = ops.length ∧ a.Inv ∧ a.cap = a0.cap := by
    intro ops
    induction ops with
    | nil => intro a0 hi _; exact ⟨a0, [], rfl, rfl, hi, rfl⟩
    | cons op ops ih =>
      intro a0 hi hh
      obtain ⟨a1, r, hr⟩ := run_ok a0 op hh.1.1
      obtain ⟨hi1, hc1⟩ := inv_step a0 op hi hh.1 a1 r hr
      obtain ⟨a2, rs, h2, h3, h4, h5⟩ := ih a1 hi1 (hh.2 a1 r hr)
      exact ⟨a2, r :: rs, by simp [runOps, hr, h2], by simp [h3], h4, by omega⟩
  have hnew : (Arena.new capacity).Inv := by
    simp only [Arena.Inv, Arena.new, prefixLen, u32]; omega
  obtain ⟨a, rs, h1, h2, h3, h4⟩ := key ops _ hnew h
  refine ⟨a, rs, h1, h2, ?_⟩
  have h5 : a.cap = capacity + 8 := by rw [h4]; simp only [Arena.new, prefixLen, u32]; omega
  obtain ⟨g1, g2, g3⟩ := h3
  simp only [Arena.capacity, Arena.usedBytes, Arena.left, prefixLen, u32, h5]
  omega

/-- non-vacuity: a mixed history with a successful and a failing allocation and a rollback is sane -/
example : Hist Sane (Arena.new 100) [.alloc 10, .allocWithClear 200, .allocEx 4, .freePart 10, .freeAll] := by
  decide +kernel

/-- **C01, negation for the unrestricted claim (i).** `FreePart(Used()+7)` on a full arena makes `Used()` exceed `Capacity()`
and `Left()` wrap to almost 2^32. -/
theorem freePart_grows_past_capacity :
    ∃ a rs, runOps (Arena.new 4) [.alloc 4, .freePart 11] = .ok (a, rs) ∧
      a.capacity = 4 ∧ a.usedBytes = 11 ∧ a.left = 4294967289 := Out.exists_of_all2 (by decide +kernel)

/-- exact condition: `FreePart(r)` makes `Used()` larger iff `Used() < r < Used() + 8` -/
theorem freePart_grows_iff (a : Arena) (ha : a.Inv) (r : Nat) (hr : r + 8 < 4294967296) :
    a.usedBytes < (a.freePart r).usedBytes ↔ a.usedBytes < r ∧ r < a.usedBytes + 8 := by
  obtain ⟨h1, h2, h3⟩ := ha
  rw [freePart_spec a r hr]
  simp only [Arena.usedBytes, prefixLen, u32]
  split <;> omega

/-- **C01, negation (ii).** An allocation of `2^32 - 2` bytes in a 100 byte arena that has 10 bytes in use "succeeds", returns the
address of the first free byte and moves `Used()` *backwards* to 8, so that the next allocation overlaps a live block. -/
theorem alloc_wraps :
    ∃ a rs, runOps (Arena.new 100) [.alloc 10, .alloc 4294967294, .alloc 2] = .ok (a, rs) ∧ rs = [8, 18, 16] ∧ a.usedBytes = 10 :=
  Out.exists_of_all2 (by decide +kernel)

/-! ## C02 -/

theorem live_step (a : Arena) (op : MemOp) (live : List (Nat × Nat)) (hcap : a.cap ≤ 65536)
    (h8 : 8 ≤ a.used) (hn : NoWrap a op) (a1 : Arena) (r : Nat) (hr : op.run a = .ok (a1, r))
    (hl : ∀ b ∈ live, 8 ≤ b.1 ∧ b.1 + b.2 ≤ a.used ∧ b.1 + b.2 ≤ a.cap) (hp : live.Pairwise Disjoint) :
    8 ≤ a1.used ∧ (∀ b ∈ liveStep live op r, 8 ≤ b.1 ∧ b.1 + b.2 ≤ a1.used ∧ b.1 + b.2 ≤ a.cap) ∧
      (liveStep live op r).Pairwise Disjoint := by
  cases hz : op.size? with
  | some n =>
    have hls : liveStep live op r = if r ≠ 0 then (r, n) :: live else live := by
      cases op <;> simp_all [liveStep, MemOp.size?]
    rw [hls]
    rcases run_alloc a op n hz hn a1 r hr with ⟨h1, h2, h3, _⟩ | ⟨h1, h2, h3, h4, _⟩
    · subst h2; simp only [ne_eq, not_true_eq_false, ↓reduceIte]; rw [h3]; exact ⟨h8, hl, hp⟩
    · have hru : r = a.used := by rw [h3, u16_id]; omega
      rw [if_pos (by omega)]
      refine ⟨by omega, ?_, ?_⟩
      · intro b hb
        rcases List.mem_cons.1 hb with rfl | hb
        · simp only; omega
        · have := hl b hb; omega
      · refine List.pairwise_cons.2 ⟨?_, hp⟩
        intro b hb i
        have := hl b hb
        simp only; omega
  | none =>
    have hf := run_free a op hz hn a1 r hr
    cases op with
    | freeAll => simp only [liveStep] at *; exact ⟨by omega, by simp, List.Pairwise.nil⟩
    | freePart m =>
      simp only [liveStep] at *
      refine ⟨?_, ?_, hp.filter _⟩
      · have := hf.2; split at this <;> omega
      · intro b hb
        have hb' := List.mem_filter.1 hb
        have h1 := hl b hb'.1
        have h2 : b.1 + b.2 ≤ 8 + m := by simpa using hb'.2
        have := hf.2; split at this <;> omega
    | alloc m => simp [MemOp.size?] at hz
    | allocEx m => simp [MemOp.size?] at hz
    | allocWithClear m => simp [MemOp.size?] at hz

/-- **C02** In an arena that 16 bit pointers can address, after every history of calls (any sizes, any `FreePart` marks, as long as
uint32 does not overflow) the live blocks are pairwise disjoint and each lies inside the arena behind the 8 byte prefix. -/
theorem live_blocks_disjoint (capacity : Nat) (hcap : capacity + 8 ≤ 65536) (ops : List MemOp)
    (h : Hist NoWrap (Arena.new capacity) ops) :
    ∃ a rs, runOps (Arena.new capacity) ops = .ok (a, rs) ∧
      (liveBlocks [] ops rs).Pairwise Disjoint ∧
      ∀ b ∈ liveBlocks [] ops rs, 8 ≤ b.1 ∧ b.1 + b.2 ≤ capacity + 8 := by
  have key : ∀ (ops : List MemOp) (a0 : Arena) (live : List (Nat × Nat)), a0.cap ≤ 65536 → 8 ≤ a0.used →
      (∀ b ∈ live, 8 ≤ b.1 ∧ b.1 + b.2 ≤ a0.used ∧ b.1 + b.2 ≤ a0.cap) → live.Pairwise Disjoint → Hist NoWrap a0 ops →
      ∃ a rs, runOps a0 ops = .ok (a, rs) ∧ (liveBlocks live ops rs).Pairwise Disjoint ∧
        ∀ b ∈ liveBlocks live ops rs, 8 ≤ b.1 ∧ b.1 + b.2 ≤ a0.cap := by
    intro ops
    induction ops with
    | nil =>
      intro a0 live _ _ hl hp _
      exact ⟨a0, [], rfl, by simpa [liveBlocks] using hp, by intro b hb; have := hl b (by simpa [liveBlocks] using hb); omega⟩
    | cons op ops ih =>
      intro a0 live hc h8 hl hp hh
      obtain ⟨a1, r, hr⟩ := run_ok a0 op hh.1
      have hc1 := run_cap a0 op hh.1 a1 r hr
      obtain ⟨g1, g2, g3⟩ := live_step a0 op live hc h8 hh.1 a1 r hr hl hp
      obtain ⟨a2, rs, k1, k2, k3⟩ := ih a1 (liveStep live op r) (by omega) g1
        (by rw [hc1]; exact g2) g3 (hh.2 a1 r hr)
      refine ⟨a2, r :: rs, by simp [runOps, hr, k1], by simpa [liveBlocks] using k2, ?_⟩
      intro b hb
      have := k3 b (by simpa [liveBlocks] using hb)
      omega
  have hc : (Arena.new capacity).cap = capacity + 8 := by simp only [Arena.new, prefixLen, u32]; omega
  obtain ⟨a, rs, h1, h2, h3⟩ := key ops (Arena.new capacity) [] (by omega) (by simp [Arena.new, prefixLen]) (by simp)
    List.Pairwise.nil h
  exact ⟨a, rs, h1, h2, by rw [hc] at h3; exact h3⟩

example : Hist NoWrap (Arena.new 100) [.alloc 10, .alloc 7, .freePart 12, .allocWithClear 3] ∧
    liveBlocks [] [.alloc 10, .alloc 7, .freePart 12, .allocWithClear 3] [8, 18, 0, 20] = [(20, 3), (8, 10)] := by
  decide +kernel

/-- **C02** No call changes a byte below the current mark, or at or beyond the end of the arena. -/
theorem run_preserves_memory (a : Arena) (op : MemOp) (hn : NoWrap a op) (a1 : Arena) (r : Nat)
    (hr : op.run a = .ok (a1, r)) (i : Nat) (hi : i < a.used ∨ a.cap ≤ i) : a1.mem i = a.mem i := by
  cases hz : op.size? with
  | some n =>
    rcases run_alloc a op n hz hn a1 r hr with h | h
    · rw [h.2.2.2]
    · exact h.2.2.2.2.1 i (by omega)
  | none => rw [(run_free a op hz hn a1 r hr).1]

/-- **C02** `AllocWithClear` returns a block of zeros and changes no other byte. -/
theorem allocWithClear_zeroes (a : Arena) (n : Nat) (hcap : a.cap ≤ 65536) (hw : a.used + n < 4294967296) (a1 : Arena) (p : Nat)
    (hr : a.allocWithClear n = .ok (a1, p)) (hp : p ≠ 0) :
    (∀ i, p ≤ i → i < p + n → a1.mem i = 0) ∧ (∀ i, ¬ (p ≤ i ∧ i < p + n) → a1.mem i = a.mem i) := by
  rcases run_alloc a (.allocWithClear n) n rfl hw a1 p hr with h | ⟨h1, h2, h3, h4, h5, h6⟩
  · exact absurd h.2.1 hp
  · have hru : p = a.used := by rw [h3, u16_id]; omega
    subst hru
    exact ⟨h6 ⟨n, rfl⟩, h5⟩

example : ∃ a1 p, (Arena.new 100).allocWithClear 10 = .ok (a1, p) ∧ p = 8 := Out.exists_of_all2 (by decide +kernel)

/-- **C02** An allocation fails (nil) exactly when the size is 0 or does not fit in what is left; a successful one takes exactly
`n` bytes. -/
theorem alloc_succeeds_iff (a : Arena) (ha : a.Inv) (hcap : a.cap ≤ 65536) (n : Nat) (hw : a.used + n < 4294967296) :
    ((a.alloc n).2 ≠ 0 ↔ 0 < n ∧ n ≤ a.left) ∧
    ((a.alloc n).2 ≠ 0 → (a.alloc n).1.usedBytes = a.usedBytes + n ∧ (a.alloc n).2 = 8 + a.usedBytes) ∧
    ((a.alloc n).2 = 0 → (a.alloc n).1.usedBytes = a.usedBytes) := by
  obtain ⟨h1, h2, h3⟩ := ha
  rcases run_alloc a (.alloc n) n rfl hw (a.alloc n).1 (a.alloc n).2 rfl with ⟨g1, g2, g3, _⟩ | ⟨g1, g2, g3, g4, _⟩
  · simp only [Arena.left, Arena.usedBytes, prefixLen, u32, g2, g3]
    refine ⟨⟨by simp, by omega⟩, by simp, by simp⟩
  · simp only [u16] at g3
    simp only [Arena.left, Arena.usedBytes, prefixLen, u32, g3, g4]
    omega

/-! ## C03 -/

/-- Only allocation calls. -/
def AllAllocs (ops : List MemOp) : Prop := ∀ op ∈ ops, op.size?.isSome
instance (ops : List MemOp) : Decidable (AllAllocs ops) := by unfold AllAllocs; infer_instance

theorem allocs_mono (ops : List MemOp) (a0 : Arena) (ha : a0.Inv) (hall : AllAllocs ops) (h : Hist NoWrap a0 ops) :
    ∃ a rs, runOps a0 ops = .ok (a, rs) ∧ a.Inv ∧ a0.used ≤ a.used ∧ a.cap = a0.cap ∧ ∀ i < a0.used, a.mem i = a0.mem i := by
  induction ops generalizing a0 with
  | nil => exact ⟨a0, [], rfl, ha, Nat.le_refl _, rfl, fun _ _ => rfl⟩
  | cons op ops ih =>
    obtain ⟨a1, r, hr⟩ := run_ok a0 op h.1
    have hs : Sane a0 op := ⟨h.1, by
      have := hall op (by simp); cases op <;> simp_all [MemOp.size?]⟩
    obtain ⟨hi1, hc1⟩ := inv_step a0 op ha hs a1 r hr
    have hu : a0.used ≤ a1.used := by
      have hz := hall op (by simp)
      obtain ⟨n, hn⟩ := Option.isSome_iff_exists.1 hz
      rcases run_alloc a0 op n hn h.1 a1 r hr with h | h <;> omega
    obtain ⟨a2, rs, g1, g2, g3, g4, g5⟩ := ih a1 hi1 (fun o ho => hall o (by simp [ho])) (h.2 a1 r hr)
    refine ⟨a2, r :: rs, by simp [runOps, hr, g1], g2, by omega, by omega, ?_⟩
    intro i hi
    rw [g5 i (by omega), run_preserves_memory a0 op h.1 a1 r hr i (Or.inl hi)]

/-- **C03** Rollback: after any allocations, `FreePart` of the earlier `Used()` restores that mark, and everything stored below the
mark is untouched. -/
theorem freePart_rollback (a0 : Arena) (ha : a0.Inv) (ops : List MemOp) (hall : AllAllocs ops) (h : Hist NoWrap a0 ops) :
    ∃ a rs, runOps a0 ops = .ok (a, rs) ∧ (a.freePart a0.usedBytes).usedBytes = a0.usedBytes ∧
      (a.freePart a0.usedBytes).used = a0.used ∧
      ∀ i < a0.used, (a.freePart a0.usedBytes).mem i = a0.mem i := by
  obtain ⟨a, rs, g1, g2, g3, g4, g5⟩ := allocs_mono ops a0 ha hall h
  obtain ⟨h1, h2, h3⟩ := ha
  have hu : a0.usedBytes = a0.used - 8 := by simp only [Arena.usedBytes, prefixLen, u32]; omega
  refine ⟨a, rs, g1, ?_⟩
  rw [freePart_spec a a0.usedBytes (by omega)]
  have h5 : ¬ a0.usedBytes ≥ a.used := by omega
  simp only [if_neg h5]
  refine ⟨?_, by omega, g5⟩
  simp only [Arena.usedBytes, prefixLen, u32]; omega

example : (Arena.new 100).Inv ∧ AllAllocs [.alloc 3, .allocEx 200] ∧ Hist NoWrap (Arena.new 100) [.alloc 3, .allocEx 200] := by decide +kernel

/-- the pointers returned and the mark reached depend only on the mark and capacity the history starts from -/
theorem runOps_determined (ops : List MemOp) (a b : Arena) (hu : a.used = b.used) (hc : a.cap = b.cap)
    (ha : Hist NoWrap a ops) (hb : Hist NoWrap b ops) :
    ∃ a1 b1 rs, runOps a ops = .ok (a1, rs) ∧ runOps b ops = .ok (b1, rs) ∧ a1.used = b1.used := by
  induction ops generalizing a b with
  | nil => exact ⟨a, b, [], rfl, rfl, hu⟩
  | cons op ops ih =>
    obtain ⟨a1, r, hr⟩ := run_ok a op ha.1
    obtain ⟨b1, s, hs⟩ := run_ok b op hb.1
    have hca := run_cap a op ha.1 a1 r hr
    have hcb := run_cap b op hb.1 b1 s hs
    have : r = s ∧ a1.used = b1.used := by
      cases hz : op.size? with
      | some n =>
        have g1 := run_alloc a op n hz ha.1 a1 r hr
        have g2 := run_alloc b op n hz hb.1 b1 s hs
        rw [hu, hc] at g1
        rcases g1 with g1 | g1 <;> rcases g2 with g2 | g2 <;> omega
      | none =>
        have g1 := (run_free a op hz ha.1 a1 r hr).2
        have g2 := (run_free b op hz hb.1 b1 s hs).2
        cases op with
        | freeAll => simp only [MemOp.run, Out.ok.injEq, Prod.mk.injEq] at hr hs; exact ⟨by omega, by simp only at g1 g2; omega⟩
        | freePart m =>
          simp only [MemOp.run, Out.ok.injEq, Prod.mk.injEq] at hr hs
          simp only [hu] at g1; simp only at g2
          exact ⟨by omega, by omega⟩
        | alloc m => simp [MemOp.size?] at hz
        | allocEx m => simp [MemOp.size?] at hz
        | allocWithClear m => simp [MemOp.size?] at hz
    obtain ⟨rfl, hu1⟩ := this
    obtain ⟨a2, b2, rs, k1, k2, k3⟩ := ih a1 b1 hu1 (by omega) (ha.2 a1 r hr) (hb.2 b1 r hs)
    exact ⟨a2, b2, r :: rs, by simp [runOps, hr, k1], by simp [runOps, hs, k2], k3⟩

/-- **C03** `FreeAll` frees everything. -/
theorem freeAll_used (a : Arena) : a.freeAll.usedBytes = 0 ∧ a.freeAll.mem = a.mem :=
  ⟨show u32 (8 + 4294967296 - 8) = 0 by decide +kernel, rfl⟩

/-- **C03, negation of "FreePart never makes Used() larger"**. -/
theorem freePart_can_grow : ∃ a : Arena, a.Inv ∧ a.usedBytes < (a.freePart (a.usedBytes + 1)).usedBytes :=
  ⟨Arena.new 100, by decide +kernel, by decide +kernel⟩

/-! ## C04 -/

/-- how many of the calls satisfy `p` -/
def countOps (p : MemOp → Bool) (ops : List MemOp) : Nat := (ops.filter p).length

/-- **C04** After any history from a fresh arena the counters are the numbers of calls, of successes, of frees, and the sum of requested
sizes, each modulo 2^32. -/
theorem stats_exact (capacity : Nat) (hcap : capacity + 8 ≤ 65536) (ops : List MemOp) (h : Hist NoWrap (Arena.new capacity) ops) :
    ∃ a rs, runOps (Arena.new capacity) ops = .ok (a, rs) ∧
      a.stat.allocNum = u32 (countOps (fun o => o.size?.isSome) ops) ∧
      a.stat.allocNumOk = u32 ((rs.filter (· ≠ 0)).length) ∧
      a.stat.freeAllNum = u32 (countOps (· == .freeAll) ops) ∧
      a.stat.freePartNum = u32 (countOps (fun o => match o with | .freePart _ => true | _ => false) ops) ∧
      a.stat.allocReqBytes = u32 ((ops.map fun o => o.size?.getD 0).sum) := by
  have key : ∀ (ops : List MemOp) (a0 : Arena), 8 ≤ a0.used → a0.cap ≤ 65536 → Hist NoWrap a0 ops →
      ∃ a rs, runOps a0 ops = .ok (a, rs) ∧
      u32 a.stat.allocNum = u32 (a0.stat.allocNum + countOps (fun o => o.size?.isSome) ops) ∧
      u32 a.stat.allocNumOk = u32 (a0.stat.allocNumOk + (rs.filter (· ≠ 0)).length) ∧
      u32 a.stat.freeAllNum = u32 (a0.stat.freeAllNum + countOps (· == .freeAll) ops) ∧
      u32 a.stat.freePartNum = u32 (a0.stat.freePartNum + countOps (fun o => match o with | .freePart _ => true | _ => false) ops) ∧
      u32 a.stat.allocReqBytes = u32 (a0.stat.allocReqBytes + (ops.map fun o => o.size?.getD 0).sum) ∧
      (a0.stat.allocNum < 4294967296 ∧ a0.stat.allocNumOk < 4294967296 ∧ a0.stat.freeAllNum < 4294967296 ∧ a0.stat.freePartNum < 4294967296 ∧ a0.stat.allocReqBytes < 4294967296 →
       a.stat.allocNum < 4294967296 ∧ a.stat.allocNumOk < 4294967296 ∧ a.stat.freeAllNum < 4294967296 ∧ a.stat.freePartNum < 4294967296 ∧ a.stat.allocReqBytes < 4294967296) := by
    intro ops
    induction ops with
    | nil => intro a0 _ _ _; exact ⟨a0, [], rfl, by simp [countOps], by simp, by simp [countOps], by simp [countOps], by simp, id⟩
    | cons op ops ih =>
      intro a0 h8 hc hh
      obtain ⟨a1, r, hr⟩ := run_ok a0 op hh.1
      have hc1 := run_cap a0 op hh.1 a1 r hr
      have h81 : 8 ≤ a1.used := (live_step a0 op [] hc h8 hh.1 a1 r hr (by simp) List.Pairwise.nil).1
      obtain ⟨a2, rs, k1, k2, k3, k4, k5, k6, k7⟩ := ih a1 h81 (by omega) (hh.2 a1 r hr)
      refine ⟨a2, r :: rs, by simp [runOps, hr, k1], ?_⟩
      have step : a1.stat.allocNum = (if op.size?.isSome then u32 (a0.stat.allocNum + 1) else a0.stat.allocNum) ∧
          a1.stat.allocNumOk = (if r ≠ 0 then u32 (a0.stat.allocNumOk + 1) else a0.stat.allocNumOk) ∧
          a1.stat.freeAllNum = (if op == .freeAll then u32 (a0.stat.freeAllNum + 1) else a0.stat.freeAllNum) ∧
          a1.stat.freePartNum = (if (match op with | .freePart _ => true | _ => false) then u32 (a0.stat.freePartNum + 1) else a0.stat.freePartNum) ∧
          a1.stat.allocReqBytes = (if op.size?.isSome then u32 (a0.stat.allocReqBytes + op.size?.getD 0) else a0.stat.allocReqBytes) := by
        cases op with
        | alloc n =>
          have hw : a0.used + n < 4294967296 := hh.1
          simp only [MemOp.run, alloc_spec a0 n hw, Out.ok.injEq] at hr
          split at hr <;> rename_i hcc <;> cases hr
          · simp [MemOp.size?, Arena.countReq]
          · have : u16 a0.used ≠ 0 := by simp only [u16]; omega
            simp [MemOp.size?, Arena.countReq, this]
        | allocEx n =>
          have hw : a0.used + n < 4294967296 := hh.1
          simp only [MemOp.run, allocEx_spec a0 n hw, alloc_spec a0 n hw, Out.ok.injEq] at hr
          split at hr <;> rename_i hcc <;> cases hr
          · simp [MemOp.size?, Arena.countReq]
          · have : u16 a0.used ≠ 0 := by simp only [u16]; omega
            simp [MemOp.size?, Arena.countReq, this]
        | allocWithClear n =>
          have hw : a0.used + n < 4294967296 := hh.1
          simp only [MemOp.run, allocWithClear_spec a0 n hw, alloc_spec a0 n hw, Out.ok.injEq] at hr
          split at hr <;> rename_i hcc <;> cases hr
          · simp [MemOp.size?, Arena.countReq]
          · have : u16 a0.used ≠ 0 := by simp only [u16]; omega
            simp [MemOp.size?, Arena.countReq, this]
        | freeAll =>
          simp only [MemOp.run, Out.ok.injEq] at hr; cases hr
          simp [MemOp.size?, Arena.freeAll]
        | freePart m =>
          have hw : m + 8 < 4294967296 := hh.1
          simp only [MemOp.run, freePart_spec a0 m hw, Out.ok.injEq] at hr; cases hr
          simp [MemOp.size?]
      obtain ⟨s1, s2, s3, s4, s5⟩ := step
      rw [s1] at k2; rw [s2] at k3; rw [s3] at k4; rw [s4] at k5; rw [s5] at k6
      rw [s1, s2, s3, s4, s5] at k7
      simp only [countOps, List.filter_cons, List.map_cons, List.sum_cons] at *
      simp only [u32] at *
      refine ⟨?_, ?_, ?_, ?_, ?_, ?_⟩
      · split at k2 <;> simp_all <;> omega
      · by_cases h : r = 0
        · simp_all
        · simp_all; omega
      · split at k4 <;> simp_all <;> omega
      · split at k5 <;> simp_all <;> omega
      · split at k6
        · omega
        · have : op.size?.getD 0 = 0 := by cases hz : op.size? <;> simp_all
          omega
      · intro hh
        apply k7
        obtain ⟨q1, q2, q3, q4, q5⟩ := hh
        refine ⟨?_, ?_, ?_, ?_, ?_⟩ <;> split <;> first | exact Nat.mod_lt _ (by decide) | assumption
  obtain ⟨a, rs, h1, h2, h3, h4, h5, h6, h7⟩ := key ops (Arena.new capacity) (by simp [Arena.new, prefixLen])
    (by simp only [Arena.new, prefixLen, u32]; omega) h
  have h7' := h7 (by simp [Arena.new])
  refine ⟨a, rs, h1, ?_⟩
  simp only [Arena.new, Nat.zero_add] at h2 h3 h4 h5 h6
  rw [u32_id h7'.1] at h2; rw [u32_id h7'.2.1] at h3; rw [u32_id h7'.2.2.1] at h4; rw [u32_id h7'.2.2.2.1] at h5
  rw [u32_id h7'.2.2.2.2] at h6
  exact ⟨h2, h3, h4, h5, h6⟩

/-! ## C05 -/

/-- **C05** Tagging a 15 bit value and reading it back. -/
theorem tag_roundtrip (v : Nat) (h : v < 32768) :
    getValue (ptrSetValue v) = v ∧ isAbnfPtr (ptrSetValue v) = false ∧ ptrSetValue v < 65536 := by
  have h1 : v ||| 32768 = v + 32768 := by
    have := Nat.two_pow_add_eq_or_of_lt (i := 15) (b := v) (by omega) 1
    rw [Nat.or_comm]; simp at this; omega
  refine ⟨?_, ?_, ?_⟩
  · unfold getValue ptrSetValue ptrBit
    rw [h1, show (32767 : Nat) = 2 ^ 15 - 1 from rfl, Nat.and_two_pow_sub_one_eq_mod]
    omega
  · unfold isAbnfPtr ptrSetValue ptrBit
    have : (v ||| 32768) &&& 32768 = 32768 := by
      apply Nat.eq_of_testBit_eq; intro i
      simp only [Nat.testBit_and, Nat.testBit_or]
      cases Nat.testBit 32768 i <;> simp
    simp [this]
  · unfold ptrSetValue ptrBit; omega

/-- an untagged 16 bit value is an address exactly when it is below 32768 -/
theorem isAbnfPtr_iff (p : Nat) (h : p < 65536) : isAbnfPtr p = true ↔ p < 32768 := by
  unfold isAbnfPtr ptrBit
  rw [show (32768 : Nat) = 2 ^ 15 from rfl]
  simp only [beq_iff_eq]
  constructor
  · intro h0
    false_or_by_contra
    have h1 : p.testBit 15 = true := by
      rw [Nat.testBit_eq_decide_div_mod_eq]; simp; omega
    have h2 := congrArg (fun x => Nat.testBit x 15) h0
    simp only [Nat.testBit_and, h1, Nat.testBit_two_pow_self, Nat.zero_testBit] at h2
    simp at h2
  · intro h0
    apply Nat.eq_of_testBit_eq; intro i
    simp only [Nat.testBit_and, Nat.testBit_two_pow, Nat.zero_testBit]
    by_cases hi : 15 = i
    · subst hi
      have : p.testBit 15 = false := Nat.testBit_lt_two_pow (by omega)
      simp [this]
    · simp [hi]

/-- **C05** In an arena of at most 32768 bytes (prefix included) every address a successful allocation returns is non-nil, is
recognised as an address, and is the true byte offset of the block. -/
theorem small_arena_pointers (a : Arena) (ha : a.Inv) (hcap : a.cap ≤ 32768) (n : Nat) (hn : 0 < n) (hf : a.used + n ≤ a.cap) :
    (a.alloc n).2 = a.used ∧ (a.alloc n).2 ≠ 0 ∧ isAbnfPtr (a.alloc n).2 = true := by
  obtain ⟨h1, h2, h3⟩ := ha
  rcases run_alloc a (.alloc n) n rfl (show a.used + n < 4294967296 by omega) (a.alloc n).1 (a.alloc n).2 rfl with g | ⟨_, _, g3, _⟩
  · omega
  · have : (a.alloc n).2 = a.used := by rw [g3, u16_id]; omega
    rw [this]
    exact ⟨rfl, by omega, (isAbnfPtr_iff _ (by omega)).2 (by omega)⟩

example : (Arena.new 100).Inv ∧ (Arena.new 100).cap ≤ 32768 ∧ (Arena.new 100).used + 5 ≤ (Arena.new 100).cap := by
  decide +kernel

/-- **C05, negation for larger arenas**: an address in the upper half of a 40000 byte arena is read as a tagged value, and in an arena of
more than 64 KiB a *successful* allocation returns nil. -/
theorem large_arena_pointers :
    (∃ a rs, runOps (Arena.new 40000) [.alloc 33000, .alloc 8] = .ok (a, rs) ∧ rs = [8, 33008] ∧ a.usedBytes = 33008 ∧
      isAbnfPtr 33008 = false) ∧
    (∃ a rs, runOps (Arena.new 70000) [.alloc 65528, .alloc 8] = .ok (a, rs) ∧ rs = [8, 0] ∧ a.usedBytes = 65536) :=
  ⟨Out.exists_of_all2 (by decide +kernel), Out.exists_of_all2 (by decide +kernel)⟩

/-! ## RoundToAlign -/

/-- `RoundToAlign(x, 2^k)` is the least multiple of `2^k` that is at least `x`, when that does not overflow. -/
theorem roundToAlign_least (x k : Nat) (hk : k < 32) (hx : x + 2 ^ k ≤ 4294967296) :
    2 ^ k ∣ roundToAlign x (2 ^ k) ∧ x ≤ roundToAlign x (2 ^ k) ∧ roundToAlign x (2 ^ k) < x + 2 ^ k := by
  have hp : 0 < 2 ^ k := Nat.two_pow_pos k
  have hle : 2 ^ k ≤ 2 ^ 31 := Nat.pow_le_pow_right (by decide) (by omega)
  have h1 : u32 (x + 2 ^ k + 4294967295) = x + 2 ^ k - 1 := by simp only [u32]; omega
  have h2 : u32 (2 ^ k + 4294967295) = 2 ^ k - 1 := by simp only [u32]; omega
  have h3 : roundToAlign x (2 ^ k) = (x + 2 ^ k - 1) / 2 ^ k * 2 ^ k := by
    unfold roundToAlign
    rw [h1, h2]
    have hy : x + 2 ^ k - 1 < 2 ^ 32 := by omega
    generalize x + 2 ^ k - 1 = y at *
    have hm : 4294967295 - (2 ^ k - 1) = (2 ^ (32 - k) - 1) * 2 ^ k := by
      rw [Nat.sub_mul, ← Nat.pow_add, show 32 - k + k = 32 by omega]; omega
    rw [hm]
    apply Nat.eq_of_testBit_eq; intro i
    rw [Nat.testBit_and, ← Nat.shiftLeft_eq, ← Nat.shiftLeft_eq, Nat.testBit_shiftLeft, Nat.testBit_shiftLeft,
      Nat.testBit_two_pow_sub_one, Nat.testBit_div_two_pow]
    by_cases hi : k ≤ i
    · by_cases hi2 : i < 32
      · simp [hi, show i - k < 32 - k by omega]
      · have : y.testBit i = false := Nat.testBit_lt_two_pow (Nat.lt_of_lt_of_le hy (Nat.pow_le_pow_right (by decide) (by omega)))
        simp [hi, this]
    · simp [hi]
  rw [h3]
  have hdm := Nat.div_add_mod (x + 2 ^ k - 1) (2 ^ k)
  have hml := Nat.mod_lt (x + 2 ^ k - 1) hp
  rw [Nat.mul_comm] at hdm
  exact ⟨Nat.dvd_mul_left _ _, by omega, by omega⟩

example : roundToAlign 13 (2 ^ 3) = 16 := by decide

/-- **C04** clearing the counter sets it to 0 and changes nothing else; the next request counts as the first -/
theorem clearAllocNum_spec (a : Arena) (n : Nat) :
    a.clearAllocNum.stat.allocNum = 0 ∧ (a.clearAllocNum.alloc n).1.stat.allocNum = 1 ∧ (a.clearAllocNum.alloc n).2 = (a.alloc n).2 ∧
    a.clearAllocNum.mem = a.mem ∧ a.clearAllocNum.used = a.used ∧ a.clearAllocNum.cap = a.cap ∧
    { a.clearAllocNum.stat with allocNum := a.stat.allocNum } = a.stat := by
  refine ⟨rfl, ?_, ?_, rfl, rfl, rfl, rfl⟩
  · by_cases h1 : n ≤ 0 <;> by_cases h2 : roundToAlign (u32 (a.used + n)) memAlign > a.cap <;>
      simp [Arena.alloc, Arena.clearAllocNum, Arena.countReq, h1, h2, show u32 1 = 1 from rfl]
  · by_cases h1 : n ≤ 0 <;> by_cases h2 : roundToAlign (u32 (a.used + n)) memAlign > a.cap <;>
      simp [Arena.alloc, Arena.clearAllocNum, Arena.countReq, h1, h2, show u32 1 = 1 from rfl]

end Sip
