import Verif.Model.Conv
import Mathlib.Tactic

/-!
# Point cloud conversion: C106
-/

set_option linter.unusedSectionVars false

namespace Mcl3dl
namespace Conv

theorem has_iff (m : Msg) (name : String) : m.has name = true ↔ ∃ f ∈ m.fields, f.name = name := by
  simp [Msg.has]

/-- The kind `fromROSMsg` uses. -/
theorem fromROSMsg_eq (m : Msg) (pc : List Point) :
    fromROSMsg m pc =
      if m.has "x" = true ∧ m.has "y" = true ∧ m.has "z" = true then
        fromROSMsgImpl m ⟨m.has "intensity", m.has "label"⟩ pc
      else (false, pc) := by
  unfold fromROSMsg
  cases hx : m.has "x" <;> cases hy : m.has "y" <;> cases hz : m.has "z" <;>
    cases hi : m.has "intensity" <;> cases hl : m.has "label" <;> simp

/-- C106: the conversion succeeds iff the message has fields named x, y and z and at least one point;
a failed conversion leaves the target as it was, a successful one gives it as many points as the
message. -/
theorem C106_success (m : Msg) (pc : List Point) :
    ((fromROSMsg m pc).1 = true ↔
      (∃ f ∈ m.fields, f.name = "x") ∧ (∃ f ∈ m.fields, f.name = "y") ∧ (∃ f ∈ m.fields, f.name = "z") ∧
        0 < m.size) ∧
    ((fromROSMsg m pc).1 = false → (fromROSMsg m pc).2 = pc) ∧
    ((fromROSMsg m pc).1 = true → (fromROSMsg m pc).2.length = m.size) := by
  rw [fromROSMsg_eq, ← has_iff, ← has_iff, ← has_iff]
  unfold fromROSMsgImpl
  split_ifs with h h0
  · refine ⟨?_, ?_, ?_⟩ <;> simp [h0]
  · refine ⟨by simp [h, Nat.pos_of_ne_zero h0], by simp, ?_⟩
    intro _
    simp only [List.length_mapIdx, List.length_append, List.length_take, List.length_replicate]
    omega
  · refine ⟨by simp; tauto, by simp, by simp⟩

/-- Field number `f` is the first field of the message with this name and datatype. -/
def FirstField (m : Msg) (name : String) (t : DType) (f : ℕ) : Prop :=
  m.fields[f]? = some ⟨name, t⟩ ∧ ∀ j < f, m.fields[j]? ≠ some ⟨name, t⟩

theorem index_some (m : Msg) (name : String) (t : DType) (f : ℕ) (h : FirstField m name t f) :
    m.index name t = some f := by
  obtain ⟨h, hfirst⟩ := h
  unfold Msg.index
  obtain ⟨hf, he⟩ := List.getElem?_eq_some_iff.1 h
  rw [List.findIdx?_eq_some_iff_getElem]
  refine ⟨hf, by rw [he]; simp, ?_⟩
  intro j hj
  have hn := hfirst j hj
  have hjl : j < m.fields.length := by omega
  rw [List.getElem?_eq_getElem hjl] at hn
  simp only [Bool.not_eq_true, Bool.and_eq_false_iff, beq_eq_false_iff_ne]
  by_contra hc
  push Not at hc
  apply hn
  rw [Option.some.injEq]
  cases hfj : m.fields[j] with
  | mk n t' => rw [hfj] at hc; simp at hc; rw [hc.1, hc.2]

theorem index_none (m : Msg) (name : String) (t : DType) (h : ⟨name, t⟩ ∉ m.fields) :
    m.index name t = none := by
  unfold Msg.index
  rw [List.findIdx?_eq_none_iff]
  rintro ⟨n, t'⟩ hx
  simp only [Bool.and_eq_false_iff, beq_eq_false_iff_ne]
  by_contra hc
  push Not at hc
  obtain ⟨rfl, rfl⟩ := hc
  exact h hx

/-- C106: what a successful conversion puts in the target, for any message and any previous content of
the target. Point `i` gets as coordinates the numbers of the first fields of that name and of type
float, 0 where there is no such field. Intensity (float) and label (unsigned 32 bit) are read in the
same way if the message has a field of that name, of whatever datatype; if it has none, the point keeps
the value it had in the target before, and a new point has 0. -/
theorem C106_content (m : Msg) (pc : List Point) (hok : (fromROSMsg m pc).1 = true) (i : ℕ)
    (hi : i < m.size) :
    ∃ p, (fromROSMsg m pc).2[i]? = some p ∧
      ((∀ f, FirstField m "x" .f32 f → p.pos.x = m.asFloat i f) ∧
        (⟨"x", .f32⟩ ∉ m.fields → p.pos.x = 0)) ∧
      ((∀ f, FirstField m "y" .f32 f → p.pos.y = m.asFloat i f) ∧
        (⟨"y", .f32⟩ ∉ m.fields → p.pos.y = 0)) ∧
      ((∀ f, FirstField m "z" .f32 f → p.pos.z = m.asFloat i f) ∧
        (⟨"z", .f32⟩ ∉ m.fields → p.pos.z = 0)) ∧
      ((∀ f, FirstField m "intensity" .f32 f → p.intensity = m.asFloat i f) ∧
        ((∃ f ∈ m.fields, f.name = "intensity") → ⟨"intensity", .f32⟩ ∉ m.fields → p.intensity = 0) ∧
        ((∀ f ∈ m.fields, f.name ≠ "intensity") →
          (∀ q, pc[i]? = some q → p.intensity = q.intensity) ∧ (pc.length ≤ i → p.intensity = 0))) ∧
      ((∀ f, FirstField m "label" .u32 f → p.label = m.asUInt i f) ∧
        ((∃ f ∈ m.fields, f.name = "label") → ⟨"label", .u32⟩ ∉ m.fields → p.label = 0) ∧
        ((∀ f ∈ m.fields, f.name ≠ "label") →
          (∀ q, pc[i]? = some q → p.label = q.label) ∧ (pc.length ≤ i → p.label = 0))) := by
  have hmem : ∀ {f : ℕ} {name : String} {t : DType}, FirstField m name t f → m.has name = true := by
    intro f name t h
    rw [has_iff]
    obtain ⟨hf, he⟩ := List.getElem?_eq_some_iff.1 h.1
    exact ⟨_, he ▸ List.getElem_mem hf, rfl⟩
  have hxyz : m.has "x" = true ∧ m.has "y" = true ∧ m.has "z" = true := by
    have := (C106_success m pc).1.1 hok
    simp only [has_iff]; exact ⟨this.1, this.2.1, this.2.2.1⟩
  rw [fromROSMsg_eq, if_pos hxyz]
  have h0 : m.size ≠ 0 := by omega
  obtain ⟨d, hd, hdq, hdn⟩ : ∃ d, (pc.take m.size ++ List.replicate (m.size - pc.length) Point.default)[i]? =
      some d ∧ (∀ q, pc[i]? = some q → d = q) ∧ (pc.length ≤ i → d = Point.default) := by
    by_cases hl : i < pc.length
    · refine ⟨pc[i], ?_, ?_, by omega⟩
      · rw [List.getElem?_append_left (by simp; omega), List.getElem?_take_of_lt hi,
          List.getElem?_eq_getElem hl]
      · intro q hq; rw [List.getElem?_eq_getElem hl, Option.some.injEq] at hq; exact hq
    · refine ⟨Point.default, ?_, ?_, fun _ => rfl⟩
      · rw [List.getElem?_append_right (by simp; omega), List.getElem?_replicate, if_pos]
        simp; omega
      · intro q hq; rw [List.getElem?_eq_none (by omega)] at hq; exact absurd hq (by simp)
  simp only [fromROSMsgImpl, if_neg h0, List.getElem?_mapIdx, hd, Option.map_some]
  refine ⟨_, rfl, ⟨?_, ?_⟩, ⟨?_, ?_⟩, ⟨?_, ?_⟩, ⟨?_, ?_, ?_⟩, ⟨?_, ?_, ?_⟩⟩
  · intro f hf; simp only [copyPoint, rawPoint, Msg.float, index_some m _ _ _ hf]
  · intro hf; simp only [copyPoint, rawPoint, Msg.float, index_none m _ _ hf]
  · intro f hf; simp only [copyPoint, rawPoint, Msg.float, index_some m _ _ _ hf]
  · intro hf; simp only [copyPoint, rawPoint, Msg.float, index_none m _ _ hf]
  · intro f hf; simp only [copyPoint, rawPoint, Msg.float, index_some m _ _ _ hf]
  · intro hf; simp only [copyPoint, rawPoint, Msg.float, index_none m _ _ hf]
  · intro f hf; simp only [copyPoint, rawPoint, Msg.float, index_some m _ _ _ hf, hmem hf, if_true]
  · intro he hf
    simp only [copyPoint, rawPoint, Msg.float, index_none m _ _ hf, (has_iff m _).2 he, if_true]
  · intro hno
    have : m.has "intensity" = false := by
      rw [Bool.eq_false_iff, ne_eq, has_iff]; rintro ⟨f, hf, hn⟩; exact hno f hf hn
    simp only [copyPoint, this]
    exact ⟨fun q hq => by simp [hdq q hq], fun hl => by simp [hdn hl, Point.default]⟩
  · intro f hf; simp only [copyPoint, rawPoint, Msg.uint, index_some m _ _ _ hf, hmem hf, if_true]
  · intro he hf
    simp only [copyPoint, rawPoint, Msg.uint, index_none m _ _ hf, (has_iff m _).2 he, if_true]
  · intro hno
    have : m.has "label" = false := by
      rw [Bool.eq_false_iff, ne_eq, has_iff]; rintro ⟨f, hf, hn⟩; exact hno f hf hn
    simp only [copyPoint, this]
    exact ⟨fun q hq => by simp [hdq q hq], fun hl => by simp [hdn hl, Point.default]⟩

/-- A one-point message with the given datatypes of the coordinates and of the label; every number in it
is 7. -/
def exMsg (tx tl : DType) : Msg :=
  ⟨[⟨"x", tx⟩, ⟨"y", .f32⟩, ⟨"z", .f32⟩, ⟨"label", tl⟩], 1, fun _ _ => 7, fun _ _ => 7⟩

/-- C106, the three surprising cases on concrete messages: a field with another datatype is silently
replaced by 0 (a `double` x, or a signed label) although the conversion reports success; and a member the
message does not have keeps the old value if the target was not empty. -/
theorem C106_other_datatypes :
    (∃ p, fromROSMsg (exMsg .f64 .u32) [] = (true, [p]) ∧ p.pos.x = 0 ∧ p.label = 7) ∧
    (∃ p, fromROSMsg (exMsg .f32 .i32) [] = (true, [p]) ∧ p.pos.x = 7 ∧ p.label = 0) ∧
    (∃ p, fromROSMsg (exMsg .f32 .u32) [⟨⟨0, 0, 0⟩, 5, 0⟩] = (true, [p]) ∧ p.intensity = 5) := by
  refine ⟨⟨_, rfl, ?_, ?_⟩, ⟨_, rfl, ?_, ?_⟩, ⟨_, rfl, ?_⟩⟩ <;> rfl

example : (fromROSMsg (exMsg .f32 .u32) []).1 = true ∧ 0 < (exMsg .f32 .u32).size ∧
    FirstField (exMsg .f32 .u32) "x" .f32 0 ∧ FirstField (exMsg .f32 .u32) "label" .u32 3 ∧
    (∀ f ∈ (exMsg .f32 .u32).fields, f.name ≠ "intensity") ∧ ⟨"label", .u32⟩ ∉ (exMsg .f32 .i32).fields := by
  refine ⟨by rfl, by simp [exMsg], ⟨rfl, by simp⟩, ⟨rfl, ?_⟩, by simp [exMsg], by simp [exMsg]⟩
  intro j hj
  have : j = 0 ∨ j = 1 ∨ j = 2 := by omega
  rcases this with rfl | rfl | rfl <;> simp [exMsg]

end Conv
end Mcl3dl
