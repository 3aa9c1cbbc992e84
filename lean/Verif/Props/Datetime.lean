import Verif.Spec.Datetime

/-!
# Properties of datetime rounding (C44)
-/

namespace Hyperreal.Props
open Spec

/-- The bucket of a datetime at a granularity, as `round_datetime` returns it. -/
def bucket (g : String) (d : Datetime) : Option Datetime :=
  match roundDatetime d with
  | .ok r => Dict.get? r g
  | .error _ => none

private theorem days_pos (y m : Nat) : 1 ≤ Datetime.daysIn y m := by
  simp only [Datetime.daysIn]; split <;> (try split) <;> omega

/-- The five truncations, for a valid datetime. -/
theorem round_ok (d : Datetime) (h : d.valid = true) :
    roundDatetime d = .ok [
      ("minute", { d with second := 0, micro := 0 }),
      ("hour", { d with minute := 0, second := 0, micro := 0 }),
      ("day", { d with hour := 0, minute := 0, second := 0, micro := 0 }),
      ("month", { d with day := 1, hour := 0, minute := 0, second := 0, micro := 0 }),
      ("year", { d with month := 1, day := 1, hour := 0, minute := 0, second := 0, micro := 0 })] := by
  have h1 := days_pos d.year d.month
  have h2 := days_pos d.year 1
  simp only [Datetime.valid, Bool.and_eq_true, decide_eq_true_eq] at h
  obtain ⟨⟨⟨⟨⟨⟨⟨⟨⟨a1, a2⟩, a3⟩, a4⟩, a5⟩, a6⟩, a7⟩, a8⟩, a9⟩, a10⟩ := h
  simp [roundDatetime, Datetime.replace, Datetime.valid, a1, a2, a3, a4, a5, a6, a7, a8, h1, h2, bind, Except.bind, pure,
    Except.pure]

/-- **C44, truncation.** For every datetime, `round_datetime` returns the five granularities, and each bucket is the datetime
truncated to the components of that granularity: a valid datetime, in the same timezone, not later than the input. -/
theorem round_truncates (d : Datetime) (h : d.valid = true) (g : String) (n : Nat) (hg : (g, n) ∈ granularities) :
    ∃ r, bucket g d = some r ∧ Truncates n d r ∧ r.valid = true ∧ notLater r d := by
  have hr := round_ok d h
  have h1 := days_pos d.year d.month
  have h2 := days_pos d.year 1
  have hv := h
  simp only [Datetime.valid, Bool.and_eq_true, decide_eq_true_eq] at hv
  obtain ⟨⟨⟨⟨⟨⟨⟨⟨⟨a1, a2⟩, a3⟩, a4⟩, a5⟩, a6⟩, a7⟩, a8⟩, a9⟩, a10⟩ := hv
  simp only [granularities, List.mem_cons, List.not_mem_nil, or_false, Prod.mk.injEq] at hg
  rcases hg with ⟨rfl, rfl⟩ | ⟨rfl, rfl⟩ | ⟨rfl, rfl⟩ | ⟨rfl, rfl⟩ | ⟨rfl, rfl⟩ <;>
    refine ⟨_, by simp [bucket, hr, Dict.get?]; rfl, ?_, ?_, ?_⟩ <;>
    simp [Truncates, parts, Datetime.valid, a1, a2, a3, a4, a5, a6, a7, a8, h1, h2, notLater, lexLe] <;> omega

/-- The datetime is determined by its components and its timezone. -/
theorem parts_ext {a b : Datetime} (h : parts a = parts b) (ho : a.offset = b.offset) : a = b := by
  cases a; cases b
  simp only [parts, List.cons.injEq, and_true] at h
  simp_all

/-- **C44, buckets.** Two datetimes are in the same bucket of a granularity exactly when they agree on the components down
to that granularity (and on the timezone). -/
theorem round_same_bucket (a b : Datetime) (ha : a.valid = true) (hb : b.valid = true) (g : String) (n : Nat)
    (hg : (g, n) ∈ granularities) :
    bucket g a = bucket g b ↔ (parts a).take n = (parts b).take n ∧ a.offset = b.offset := by
  obtain ⟨r, hr, ⟨t1, t2⟩, -⟩ := round_truncates a ha g n hg
  obtain ⟨r', hr', ⟨t1', t2'⟩, -⟩ := round_truncates b hb g n hg
  rw [hr, hr', Option.some.injEq]
  constructor
  · rintro rfl
    refine ⟨?_, by rw [← t2, ← t2']⟩
    rw [t1] at t1'
    exact (List.append_inj_left' t1' rfl)
  · rintro ⟨h1, h2⟩
    apply parts_ext
    · rw [t1, t1', h1]
    · rw [t2, t2', h2]

/-- **C44, nesting.** The coarser bucket of a finer bucket is the coarser bucket of the datetime itself; in particular
rounding is idempotent. -/
theorem round_nested (d : Datetime) (h : d.valid = true) (g g' : String) (n n' : Nat) (hg : (g, n) ∈ granularities)
    (hg' : (g', n') ∈ granularities) (hn : n ≤ n') (r : Datetime) (hr : bucket g' d = some r) :
    bucket g r = bucket g d := by
  obtain ⟨r', hr', ⟨t1, t2⟩, hv, -⟩ := round_truncates d h g' n' hg'
  rw [hr, Option.some.injEq] at hr'
  subst hr'
  refine (round_same_bucket r d hv h g n hg).2 ⟨?_, t2⟩
  have hlen : n' ≤ (parts d).length := by
    simp only [granularities, List.mem_cons, List.not_mem_nil, or_false, Prod.mk.injEq] at hg'
    simp [parts]; omega
  rw [t1, List.take_append_of_le_length (by simp; omega), List.take_take, Nat.min_eq_left hn]

/-- **C44, order (part proved).** Rounding keeps the order of datetimes in the same timezone, or without timezone.  Across
timezones it does not (`round_mixed_zones`). -/
theorem round_monotone_partial (a b : Datetime) (ha : a.valid = true) (hb : b.valid = true) (hab : notLater a b) (g : String)
    (n : Nat) (hg : (g, n) ∈ granularities) (r r' : Datetime) (hr : bucket g a = some r) (hr' : bucket g b = some r') :
    notLater r r' := by
  have e1 := round_ok a ha
  have e2 := round_ok b hb
  simp only [granularities, List.mem_cons, List.not_mem_nil, or_false, Prod.mk.injEq] at hg
  simp only [notLater, parts, lexLe, and_true] at hab
  rcases hg with ⟨rfl, rfl⟩ | ⟨rfl, rfl⟩ | ⟨rfl, rfl⟩ | ⟨rfl, rfl⟩ | ⟨rfl, rfl⟩ <;>
    simp [bucket, e1, e2, Dict.get?] at hr hr' <;> subst hr hr' <;> simp [notLater, parts, lexLe] <;> omega

/-- The number of days before a year. -/
private def yearStart (y : Nat) : Nat := 365 * (y - 1) + (y - 1) / 4 - (y - 1) / 100 + (y - 1) / 400

private theorem yearStart_succ (y : Nat) (hy : 1 ≤ y) :
    yearStart y + (if Datetime.leap y then 366 else 365) = yearStart (y + 1) := by
  obtain ⟨z, rfl⟩ : ∃ z, y = z + 1 := ⟨y - 1, by omega⟩
  have e4 : (z + 1) / 4 = z / 4 + if (z + 1) % 4 = 0 then 1 else 0 := by split <;> omega
  have e100 : (z + 1) / 100 = z / 100 + if (z + 1) % 100 = 0 then 1 else 0 := by split <;> omega
  have e400 : (z + 1) / 400 = z / 400 + if (z + 1) % 400 = 0 then 1 else 0 := by split <;> omega
  have l1 : z / 100 ≤ z / 4 := by omega
  have i1 : (z + 1) % 100 = 0 → (z + 1) % 4 = 0 := by omega
  have i2 : (z + 1) % 400 = 0 → (z + 1) % 100 = 0 := by omega
  simp only [yearStart, Datetime.leap, Nat.add_sub_cancel, e4, e100, e400]
  generalize z / 4 = p, z / 100 = q, z / 400 = r at *
  by_cases h4 : (z + 1) % 4 = 0 <;> by_cases h100 : (z + 1) % 100 = 0 <;> by_cases h400 : (z + 1) % 400 = 0 <;>
    clear e4 e100 e400 <;> simp [h4, h100, h400] at i1 i2 ⊢ <;> (try split_ifs) <;> omega

private theorem yearStart_mono (y z : Nat) (h : y ≤ z) (hy : 1 ≤ y) : yearStart y ≤ yearStart z := by
  induction z, h using Nat.le_induction with
  | base => exact le_rfl
  | succ z hz ih =>
    have := yearStart_succ z (by omega)
    omega

/-- The days of the months before month `m + 1`. -/
private def before (y m : Nat) : Nat := ((List.range m).map (fun m => Datetime.daysIn y (m + 1))).sum

private theorem before_succ (y m : Nat) : before y (m + 1) = before y m + Datetime.daysIn y (m + 1) := by
  simp [before, List.range_succ]

private theorem before_mono (y m n : Nat) (h : m ≤ n) : before y m ≤ before y n := by
  induction n, h using Nat.le_induction with
  | base => exact le_rfl
  | succ n _ ih => rw [before_succ]; omega

private theorem before_year (y : Nat) : before y 12 = if Datetime.leap y then 366 else 365 := by
  by_cases h : Datetime.leap y = true <;> simp [before, Datetime.daysIn, List.range, List.range.loop, h]

/-- Day numbers are ordered like year, month and day. -/
theorem ordinal_lt (a b : Datetime) (ha : a.valid = true) (hb : b.valid = true)
    (h : a.year < b.year ∨ (a.year = b.year ∧ (a.month < b.month ∨ (a.month = b.month ∧ a.day < b.day)))) :
    ordinal a < ordinal b := by
  simp only [Datetime.valid, Bool.and_eq_true, decide_eq_true_eq] at ha hb
  obtain ⟨⟨⟨⟨⟨⟨⟨⟨⟨a1, a2⟩, a3⟩, a4⟩, a5⟩, a6⟩, -⟩, -⟩, -⟩, -⟩ := ha
  obtain ⟨⟨⟨⟨⟨⟨⟨⟨⟨b1, b2⟩, b3⟩, b4⟩, b5⟩, b6⟩, -⟩, -⟩, -⟩, -⟩ := hb
  have oa : ordinal a = yearStart a.year + before a.year (a.month - 1) + a.day := rfl
  have ob : ordinal b = yearStart b.year + before b.year (b.month - 1) + b.day := rfl
  have s1 := before_succ a.year (a.month - 1)
  rw [Nat.sub_add_cancel a3] at s1
  rcases h with h | ⟨h, h' | ⟨h', h''⟩⟩
  · have s2 := before_mono a.year a.month 12 a4
    have s3 := before_year a.year
    have s4 := yearStart_succ a.year a1
    have s5 := yearStart_mono (a.year + 1) b.year h (by omega)
    omega
  · have s2 := before_mono a.year a.month (b.month - 1) (by omega)
    rw [h] at s1 s2 oa a6
    omega
  · rw [oa, ob, h, h']; omega

/-- The order by components is the order of the instants, for two datetimes with the same offset: this is why `notLater` is
Python's `<=` for them. -/
theorem notLater_iff_instant (a b : Datetime) (ha : a.valid = true) (hb : b.valid = true) (ho : a.offset = b.offset) :
    notLater a b ↔ instant a ≤ instant b := by
  have h1 := ordinal_lt a b ha hb
  have h2 := ordinal_lt b a hb ha
  have h3 : a.year = b.year → a.month = b.month → a.day = b.day → ordinal a = ordinal b := by
    intro e1 e2 e3; simp only [ordinal, e1, e2, e3]
  simp only [Datetime.valid, Bool.and_eq_true, decide_eq_true_eq] at ha hb
  simp only [notLater, parts, lexLe, and_true, instant, ho]
  generalize ordinal a = x at *
  generalize ordinal b = y at *
  generalize b.offset.getD 0 = z at *
  constructor
  · intro h
    rcases h with h | ⟨e1, h | ⟨e2, h | ⟨e3, h⟩⟩⟩
    · have := h1 (.inl h); push_cast; omega
    · have := h1 (.inr ⟨e1, .inl h⟩); push_cast; omega
    · have := h1 (.inr ⟨e1, .inr ⟨e2, h⟩⟩); push_cast; omega
    · have := h3 e1 e2 e3; push_cast; omega
  · intro h
    by_contra hc
    have : b.year < a.year ∨ (b.year = a.year ∧ (b.month < a.month ∨ (b.month = a.month ∧ b.day < a.day))) ∨
        (a.year = b.year ∧ a.month = b.month ∧ a.day = b.day) := by omega
    rcases this with e | e | ⟨e1, e2, e3⟩
    · have := h2 (.inl e); push_cast at h; omega
    · have := h2 (.inr e); push_cast at h; omega
    · have := h3 e1 e2 e3; push_cast at h; omega

/-- A datetime as an example, and its buckets. -/
def sampleTime : Datetime := ⟨2024, 2, 29, 23, 59, 58, 7, some 3600⟩

example : sampleTime.valid = true ∧ bucket "month" sampleTime = some ⟨2024, 2, 1, 0, 0, 0, 0, some 3600⟩ ∧
    bucket "year" sampleTime = some ⟨2024, 1, 1, 0, 0, 0, 0, some 3600⟩ ∧
    bucket "day" ⟨2024, 2, 29, 1, 0, 0, 0, some 3600⟩ = bucket "day" sampleTime := by decide +kernel

/-- **C44, refutation.** Across timezones rounding can reverse the order: one datetime is later than the other (as an
instant, the way Python compares them), but its day is earlier. -/
theorem round_mixed_zones : ∃ a b ra rb : Datetime, a.valid = true ∧ b.valid = true ∧ bucket "day" a = some ra ∧
    bucket "day" b = some rb ∧ instant b < instant a ∧ instant ra < instant rb :=
  ⟨⟨2020, 1, 1, 23, 30, 0, 0, some 0⟩, ⟨2020, 1, 2, 0, 30, 0, 0, some 7200⟩,
   ⟨2020, 1, 1, 0, 0, 0, 0, some 0⟩, ⟨2020, 1, 2, 0, 0, 0, 0, some 7200⟩, by decide +kernel⟩

end Hyperreal.Props
