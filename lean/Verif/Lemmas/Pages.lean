import Verif.Spec.Pages
import Verif.Props.Html

/-! # Reading the pages: templates are read as they are, whatever is shown in them -/

namespace Hyperreal.Pages
open Spec Spec.Page

/-! ## Whole pieces of pages -/

/-- Between tags. -/
def Rest (r : Reader Char) : Prop := r.mode = .text ∧ r.key = [] ∧ r.val = []

/-- What has been read. -/
def Reader.nodes (r : Reader Char) : List Node := (r.done ++ [r.cur]).map Elem.node

/-- Wherever it is read (between tags), the text adds these tags and ends between tags. -/
def Whole (x : List Char) (es : List Node) : Prop :=
  ∀ s, Rest s → Rest (x.foldl read s) ∧ Reader.nodes (x.foldl read s) = Reader.nodes s ++ es

theorem whole_nil : Whole [] [] := fun s h => ⟨h, by simp⟩

theorem Whole.append {x y : List Char} {es fs : List Node} (hx : Whole x es) (hy : Whole y fs) : Whole (x ++ y) (es ++ fs) := by
  intro s hs
  obtain ⟨h1, h2⟩ := hx s hs
  obtain ⟨h3, h4⟩ := hy _ h1
  rw [List.foldl_append]
  exact ⟨h3, by rw [h4, h2, List.append_assoc]⟩

theorem whole_flatMap {α : Type} (l : List α) (f : α → List Char) (g : α → List Node) (h : ∀ a ∈ l, Whole (f a) (g a)) :
    Whole (l.flatMap f) (l.flatMap g) := by
  induction l with
  | nil => exact whole_nil
  | cons a l ih =>
    rw [List.flatMap_cons, List.flatMap_cons]
    exact (h a (by simp)).append (ih fun b hb => h b (by simp [hb]))

theorem Whole.nodes {x : List Char} {es : List Node} (h : Whole x es) : Page.nodes x = ⟨"", [], ""⟩ :: es := by
  have := (h start ⟨rfl, rfl, rfl⟩).2
  show Reader.nodes (x.foldl read start) = _
  rw [this]
  rfl

/-! ## Templates -/

/-- One cell; `none` where nothing may be shown, or where the meaning of the text would depend on more than the reader
knows. -/
def sread (bare : List String) (r : Reader Cell) (x : Cell) : Option (Reader Cell) :=
  match x with
  | .inl c =>
    match r.mode with
    | .text =>
      if c = '<' then some { r with done := r.done ++ [r.cur], cur := ⟨[], [], []⟩, mode := .tag }
      else some { r with cur := { r.cur with text := r.cur.text ++ [.inl c] } }
    | .tag =>
      if c = '>' then some { r with mode := .text }
      else if isSpace c then some { r with mode := .gap }
      else some { r with cur := { r.cur with tag := r.cur.tag ++ [c] } }
    | .gap =>
      if c = '>' then some { r with mode := .text }
      else if isSpace c || c = '/' then some r
      else some { r with mode := .key, key := [c] }
    | .key =>
      if c = '>' then some (r.push .text)
      else if isSpace c || c = '/' then some (r.push .gap)
      else if c = '=' then some { r with mode := .value }
      else some { r with key := r.key ++ [c] }
    | .value =>
      if c = '"' then some { r with mode := .quoted } else none
    | .quoted =>
      if c = '"' then some (r.push .gap) else some { r with val := r.val ++ [.inl c] }
    | .bare => if c = '>' then some (r.push .text) else none
  | .inr n =>
    match r.mode with
    | .text => some { r with cur := { r.cur with text := r.cur.text ++ [.inr n] } }
    | .quoted => some { r with val := r.val ++ [.inr n] }
    | .value => if n ∈ bare then some { r with mode := .bare, val := [.inr n] } else none
    | _ => none

section
variable (env : String → String)

def Elem.fill (e : Elem Cell) : Elem Char :=
  ⟨e.tag, e.attrs.map (fun a => (a.1, a.2.flatMap (cellChars env))), e.text.flatMap (cellChars env)⟩

/-- The reader of the filled template, started where `D` had been read. -/
def Reader.fill (D : List (Elem Char)) (r : Reader Cell) : Reader Char :=
  ⟨D ++ r.done.map (Elem.fill env), Elem.fill env r.cur, r.mode, r.key, r.val.flatMap (cellChars env)⟩

theorem escaped_mem {c : Char} (s : String) (h : c ∈ SX.escaped (some s)) :
    c ≠ '<' ∧ c ≠ '>' ∧ c ≠ '"' ∧ (isSpace c = true → c ∈ s.toList) := by
  simp only [SX.escaped, Option.getD_some] at h
  obtain ⟨d, hd, hc⟩ := List.mem_flatMap.1 h
  unfold SX.escapeChar at hc
  split_ifs at hc with h1 h2 h3 h4 h5
  · have hm : c ∈ ['&', 'a', 'm', 'p', ';'] := hc
    fin_cases hm <;> exact ⟨by decide, by decide, by decide, fun h => absurd h (by decide)⟩
  · have hm : c ∈ ['&', 'l', 't', ';'] := hc
    fin_cases hm <;> exact ⟨by decide, by decide, by decide, fun h => absurd h (by decide)⟩
  · have hm : c ∈ ['&', 'g', 't', ';'] := hc
    fin_cases hm <;> exact ⟨by decide, by decide, by decide, fun h => absurd h (by decide)⟩
  · have hm : c ∈ ['&', '#', '3', '9', ';'] := hc
    fin_cases hm <;> exact ⟨by decide, by decide, by decide, fun h => absurd h (by decide)⟩
  · have hm : c ∈ ['&', '#', '3', '4', ';'] := hc
    fin_cases hm <;> exact ⟨by decide, by decide, by decide, fun h => absurd h (by decide)⟩
  · have : c = d := by simpa using hc
    subst this
    exact ⟨h2, h3, h5, fun _ => hd⟩

theorem read_text (l : List Char) : ∀ r : Reader Char, r.mode = .text → (∀ c ∈ l, c ≠ '<') →
    l.foldl read r = { r with cur := { r.cur with text := r.cur.text ++ l } } := by
  induction l with
  | nil => intro r _ _; simp
  | cons c l ih =>
    intro r hr h
    rw [List.foldl_cons]
    have : read r c = { r with cur := { r.cur with text := r.cur.text ++ [c] } } := by
      rw [Page.read, hr]; simp [h c (by simp)]
    rw [this]
    refine (ih _ (by exact hr) (fun d hd => h d (by simp [hd]))).trans ?_
    simp

theorem read_quoted (l : List Char) : ∀ r : Reader Char, r.mode = .quoted → (∀ c ∈ l, c ≠ '"') →
    l.foldl read r = { r with val := r.val ++ l } := by
  induction l with
  | nil => intro r _ _; simp
  | cons c l ih =>
    intro r hr h
    rw [List.foldl_cons]
    have : read r c = { r with val := r.val ++ [c] } := by
      rw [Page.read, hr]; simp [h c (by simp)]
    rw [this]
    refine (ih _ (by exact hr) (fun d hd => h d (by simp [hd]))).trans ?_
    simp

theorem read_bare (l : List Char) : ∀ r : Reader Char, r.mode = .bare → (∀ c ∈ l, c ≠ '>' ∧ isSpace c = false) →
    l.foldl read r = { r with val := r.val ++ l } := by
  induction l with
  | nil => intro r _ _; simp
  | cons c l ih =>
    intro r hr h
    rw [List.foldl_cons]
    have : read r c = { r with val := r.val ++ [c] } := by
      rw [Page.read, hr]; simp [h c (by simp)]
    rw [this]
    refine (ih _ (by exact hr) (fun d hd => h d (by simp [hd]))).trans ?_
    simp

theorem escaped_ne_nil {s : String} (h : s ≠ "") : SX.escaped (some s) ≠ [] := by
  intro e
  have := Props.readText_escaped s.toList
  rw [show s.toList.flatMap SX.escapeChar = SX.escaped (some s) from rfl, e] at this
  exact h (by rw [← String.toList_inj, ← this]; rfl)

/-- Nothing is read of a value outside of values. -/
def Reader.Clean {α : Type} (r : Reader α) : Prop := r.mode ≠ .quoted → r.mode ≠ .bare → r.val = []

/-- Reading the filled template follows reading the template. -/
theorem sread_sound {bare : List String} (hb : ∀ n ∈ bare, env n ≠ "" ∧ ∀ c ∈ (env n).toList, isSpace c = false)
    (D : List (Elem Char)) {r r' : Reader Cell} {x : Cell} (hv : Reader.Clean r) (h : sread bare r x = some r') :
    (cellChars env x).foldl read (Reader.fill env D r) = Reader.fill env D r' ∧ Reader.Clean r' := by
  obtain ⟨done, cur, mode, key, val⟩ := r
  unfold Reader.Clean at hv ⊢
  cases x with
  | inl c =>
    simp only [cellChars, List.foldl_cons, List.foldl_nil]
    cases mode <;> simp only [sread] at h
    · split_ifs at h with h2 <;> simp only [Option.some.injEq] at h <;> subst h
      · subst h2
        refine ⟨?_, by simpa using hv⟩
        simp [Page.read, Reader.fill, Elem.fill]
      · refine ⟨?_, by simpa using hv⟩
        simp [Page.read, Reader.fill, Elem.fill, h2, cellChars]
    · split_ifs at h with h1 h2 <;> simp only [Option.some.injEq] at h <;> subst h
      · exact ⟨by simp [Page.read, Reader.fill, Elem.fill, h1], by simpa using hv⟩
      · exact ⟨by simp [Page.read, Reader.fill, Elem.fill, h1, h2], by simpa using hv⟩
      · exact ⟨by simp [Page.read, Reader.fill, Elem.fill, h1, h2], by simpa using hv⟩
    · split_ifs at h with h1 h2 <;> simp only [Option.some.injEq] at h <;> subst h
      · exact ⟨by simp [Page.read, Reader.fill, Elem.fill, h1], by simpa using hv⟩
      · exact ⟨by simp only [Bool.or_eq_true, decide_eq_true_eq] at h2; simp [Page.read, Reader.fill, Elem.fill, h1, h2], by simpa using hv⟩
      · exact ⟨by simp only [Bool.or_eq_true, decide_eq_true_eq, not_or] at h2; simp [Page.read, Reader.fill, Elem.fill, h1, h2], by simpa using hv⟩
    · split_ifs at h with h1 h2 h3 <;> simp only [Option.some.injEq] at h <;> subst h
      · exact ⟨by simp [Page.read, Reader.fill, Elem.fill, Reader.push, h1], by simp [Reader.push]⟩
      · exact ⟨by simp only [Bool.or_eq_true, decide_eq_true_eq] at h2; simp [Page.read, Reader.fill, Elem.fill, Reader.push, h1, h2], by simp [Reader.push]⟩
      · exact ⟨by subst h3; simp [Page.read, Reader.fill, Elem.fill, isSpace], by simpa using hv⟩
      · exact ⟨by simp only [Bool.or_eq_true, decide_eq_true_eq, not_or] at h2; simp [Page.read, Reader.fill, Elem.fill, h1, h2, h3], by simpa using hv⟩
    · split_ifs at h with h1 <;> simp only [Option.some.injEq] at h <;> subst h
      subst h1
      exact ⟨by simp [Page.read, Reader.fill, Elem.fill, isSpace], by simp⟩
    · split_ifs at h with h2 <;> simp only [Option.some.injEq] at h <;> subst h
      · subst h2
        exact ⟨by simp [Page.read, Reader.fill, Elem.fill, Reader.push], by simp [Reader.push]⟩
      · exact ⟨by simp [Page.read, Reader.fill, Elem.fill, h2, cellChars], by simp⟩
    · split_ifs at h with h1 <;> simp only [Option.some.injEq] at h <;> subst h
      subst h1
      exact ⟨by simp [Page.read, Reader.fill, Elem.fill, Reader.push], by simp [Reader.push]⟩
  | inr n =>
    simp only [cellChars]
    cases mode <;> simp only [sread, reduceCtorEq] at h
    · simp only [Option.some.injEq] at h; subst h
      refine ⟨?_, by simpa using hv⟩
      rw [read_text _ _ rfl (fun c hc => (escaped_mem _ hc).1)]
      simp [Reader.fill, Elem.fill, cellChars]
    · split_ifs at h with h1
      simp only [Option.some.injEq] at h; subst h
      refine ⟨?_, by simp⟩
      have hv : val = [] := hv (by simp) (by simp)
      subst hv
      obtain ⟨hn, hs⟩ := hb n h1
      have hm := fun c hc => escaped_mem (c := c) (env n) hc
      cases he : SX.escaped (some (env n)) with
      | nil => exact absurd he (escaped_ne_nil hn)
      | cons c l =>
        rw [he] at hm
        have hsp : ∀ d ∈ c :: l, isSpace d = false := by
          intro d hd
          by_contra hh
          have := hs d ((hm d hd).2.2.2 (by simpa using hh))
          exact hh this
        have h0 := hm c (by simp)
        rw [List.foldl_cons]
        have : read (Reader.fill env D ⟨done, cur, .value, key, []⟩) c = ⟨D ++ done.map (Elem.fill env), Elem.fill env cur, .bare, key, [c]⟩ := by
          simp [Page.read, Reader.fill, h0.2.1, h0.2.2.1, hsp c (by simp)]
        rw [this, read_bare _ _ rfl (fun d hd => ⟨(hm d (by simp [hd])).2.1, hsp d (by simp [hd])⟩)]
        simp [Reader.fill, cellChars, he]
    · simp only [Option.some.injEq] at h; subst h
      refine ⟨?_, by simp⟩
      rw [read_quoted _ _ rfl (fun c hc => (escaped_mem _ hc).2.2.1)]
      simp [Reader.fill, cellChars]

theorem sread_all {bare : List String} (hb : ∀ n ∈ bare, env n ≠ "" ∧ ∀ c ∈ (env n).toList, isSpace c = false)
    (D : List (Elem Char)) (l : List Cell) : ∀ {r r' : Reader Cell}, Reader.Clean r → l.foldlM (sread bare) r = some r' →
    (l.flatMap (cellChars env)).foldl read (Reader.fill env D r) = Reader.fill env D r' ∧ Reader.Clean r' := by
  induction l with
  | nil =>
    intro r r' hv h
    have : r = r' := by simpa using h
    subst this
    exact ⟨rfl, hv⟩
  | cons x l ih =>
    intro r r' hv h
    rw [List.foldlM_cons] at h
    cases hx : sread bare r x with
    | none => rw [hx] at h; simp at h
    | some r1 =>
      rw [hx] at h
      obtain ⟨h1, h2⟩ := sread_sound env hb D hv hx
      rw [List.flatMap_cons, List.foldl_append, h1]
      exact ih h2 h

/-! ## Values are read as they are -/

theorem readText_cons_escape (c : Char) (x : List Char) : readText (SX.escapeChar c ++ x) = c :: readText x := by
  unfold SX.escapeChar
  split_ifs with h1 h2 h3 h4 h5
  · subst h1; show readText ('&' :: 'a' :: 'm' :: 'p' :: ';' :: x) = _; rw [readText]
  · subst h2; show readText ('&' :: 'l' :: 't' :: ';' :: x) = _; rw [readText]
  · subst h3; show readText ('&' :: 'g' :: 't' :: ';' :: x) = _; rw [readText]
  · subst h4; show readText ('&' :: '#' :: '3' :: '9' :: ';' :: x) = _; rw [readText]
  · subst h5; show readText ('&' :: '#' :: '3' :: '4' :: ';' :: x) = _; rw [readText]
  · show readText (c :: x) = _
    rw [readText.eq_6]
    all_goals intros; simp_all

theorem readText_append_escape (s x : List Char) : readText (s.flatMap SX.escapeChar ++ x) = s ++ readText x := by
  induction s with
  | nil => rfl
  | cons c s ih => rw [List.flatMap_cons, List.append_assoc, readText_cons_escape, ih]; rfl

theorem readText_cons_plain (c : Char) (h : c ≠ '&') (x : List Char) : readText (c :: x) = c :: readText x := by
  rw [readText.eq_6]
  all_goals intros; simp_all

theorem readText_cells (l : List Cell) (h : ∀ x ∈ l, x ≠ .inl '&') : readText (l.flatMap (cellChars env)) =
    l.flatMap (fun x => match x with | .inl c => [c] | .inr n => (env n).toList) := by
  induction l with
  | nil => rfl
  | cons x l ih =>
    have ih := ih fun y hy => h y (by simp [hy])
    rw [List.flatMap_cons, List.flatMap_cons]
    cases x with
    | inl c =>
      show readText (c :: l.flatMap (cellChars env)) = c :: _
      rw [readText_cons_plain c (fun e => h (.inl c) (by simp) (by rw [e])), ih]; rfl
    | inr n =>
      show readText (SX.escaped (some (env n)) ++ _) = (env n).toList ++ _
      rw [← ih, ← readText_append_escape]; rfl

/-- The cells of a pattern. -/
def _root_.Hyperreal.Spec.Page.Pattern.elem (p : Pattern) : Elem Cell :=
  ⟨p.tag.toList, p.attrs.map (fun a => (a.1.toList, cellsOf none a.2.toList)), cellsOf none p.text.toList⟩

def noRefs (s : String) : Bool := (cellsOf none s.toList).all (fun x => decide (x ≠ .inl '&'))

theorem elem_node (p : Pattern) (h : noRefs p.text = true ∧ ∀ a ∈ p.attrs, noRefs a.2 = true) :
    (Elem.fill env p.elem).node = p.node env := by
  have key : ∀ s : String, noRefs s = true → String.ofList (readText ((cellsOf none s.toList).flatMap (cellChars env))) = textOf env s := by
    intro s hs
    rw [readText_cells]
    · rfl
    · simpa [noRefs] using hs
  unfold Elem.node Elem.fill Pattern.elem Pattern.node
  simp only [List.map_map, Node.mk.injEq, String.ofList_toList, true_and]
  refine ⟨List.map_congr_left fun a ha => ?_, key _ h.1⟩
  simp only [Function.comp, String.ofList_toList, Prod.mk.injEq, true_and]
  exact key _ (h.2 a ha)

end

/-- The lines of a template are read as these tags; only the named expressions are shown without quotes. -/
def checkLines (bare : List String) (lines : List String) (ps : List Pattern) : Bool :=
  match cells lines with
  | .inl '<' :: rest =>
    match rest.foldlM (sread bare) ⟨[], ⟨[], [], []⟩, .tag, [], []⟩ with
    | some r => decide (r.mode = .text) && decide (r.key = []) && decide (r.done ++ [r.cur] = ps.map Pattern.elem) &&
        ps.all (fun p => noRefs p.text && p.attrs.all (fun a => noRefs a.2))
    | none => false
  | _ => false

theorem lines_whole (env : String → String) (bare : List String)
    (hb : ∀ n ∈ bare, env n ≠ "" ∧ ∀ c ∈ (env n).toList, isSpace c = false) (lines : List String) (ps : List Pattern)
    (h : checkLines bare lines ps = true) : Whole (fill env lines) (ps.map (Pattern.node env)) := by
  unfold checkLines at h
  split at h
  · rename_i rest hc
    split at h
    · rename_i r hr
      simp only [Bool.and_eq_true, decide_eq_true_eq, List.all_eq_true] at h
      obtain ⟨⟨⟨h1, h2⟩, h3⟩, h4⟩ := h
      intro s hs
      obtain ⟨h5, h6⟩ := sread_all env hb (s.done ++ [s.cur]) rest (r := ⟨[], ⟨[], [], []⟩, .tag, [], []⟩)
        (by intro _ _; rfl) hr
      have h7 : (fill env lines).foldl read s = Reader.fill env (s.done ++ [s.cur]) r := by
        rw [← h5]
        unfold fill
        rw [hc, List.flatMap_cons]
        show List.foldl read (read s '<') _ = _
        congr 1
        obtain ⟨m, k, v⟩ := hs
        simp [Page.read, m, Reader.fill, Elem.fill, k, v]
      rw [h7]
      refine ⟨⟨h1, h2, ?_⟩, ?_⟩
      · show r.val.flatMap _ = []
        rw [h6 (by rw [h1]; simp) (by rw [h1]; simp)]; rfl
      · unfold Reader.nodes Reader.fill
        have : s.done ++ [s.cur] ++ r.done.map (Elem.fill env) ++ [Elem.fill env r.cur] =
            s.done ++ [s.cur] ++ (r.done ++ [r.cur]).map (Elem.fill env) := by simp
        dsimp only
        rw [this, h3, List.map_append, List.map_map, List.map_map]
        congr 1
        refine List.map_congr_left fun p hp => ?_
        exact elem_node env p (h4 p hp)
    · cases h
  · cases h

theorem lines_whole' (env : String → String) (lines : List String) (ps : List Pattern)
    (h : checkLines [] lines ps = true) : Whole (fill env lines) (ps.map (Pattern.node env)) :=
  lines_whole env [] (by simp) lines ps h

/-! ## Documents that are markup themselves -/

/-- Outside of attributes nothing is read of one. -/
def Reader.Calm (r : Reader Char) : Prop :=
  (r.mode = .text ∨ r.mode = .tag ∨ r.mode = .gap → r.key = [] ∧ r.val = []) ∧ (r.mode = .key ∨ r.mode = .value → r.val = [])

theorem read_calm (r : Reader Char) (c : Char) (h : Reader.Calm r) : Reader.Calm (read r c) := by
  obtain ⟨done, cur, mode, key, val⟩ := r
  obtain ⟨h1, h2⟩ := h
  cases mode <;> simp only [Page.read] <;> split_ifs <;> simp_all [Reader.Calm, Reader.push]

theorem fold_calm (l : List Char) : ∀ r, Reader.Calm r → Reader.Calm (l.foldl read r) := by
  induction l with
  | nil => intro r h; exact h
  | cons c l ih => intro r h; exact ih _ (read_calm r c h)

theorem finished_rest {s : List Char} (h : Finished s) : Rest (s.foldl read start) := by
  have h1 := fold_calm s start (by simp [Reader.Calm, start])
  exact ⟨h, h1.1 (Or.inl h)⟩

/-- The second reader started with a tag where the first started with nothing. -/
inductive Grafted (D : List (Elem Char)) (tag : List Char) (attrs : List (List Char × List Char)) :
    Reader Char → Reader Char → Prop where
  | first (t : List Char) : Grafted D tag attrs ⟨[], ⟨[], [], t⟩, .text, [], []⟩ ⟨D, ⟨tag, attrs, t⟩, .text, [], []⟩
  | later (t : List Char) (es : List (Elem Char)) (cur : Elem Char) (m : Mode) (k v : List Char) :
    Grafted D tag attrs ⟨⟨[], [], t⟩ :: es, cur, m, k, v⟩ ⟨D ++ ⟨tag, attrs, t⟩ :: es, cur, m, k, v⟩

theorem grafted_read {D : List (Elem Char)} {tag : List Char} {attrs : List (List Char × List Char)} {r r' : Reader Char}
    (h : Grafted D tag attrs r r') (c : Char) : Grafted D tag attrs (read r c) (read r' c) := by
  cases h with
  | first t =>
    by_cases hc : c = '<'
    · subst hc
      exact Grafted.later t [] ⟨[], [], []⟩ .tag [] []
    · simp only [Page.read, hc, if_false]
      exact Grafted.first (t ++ [c])
  | later t es cur m k v =>
    cases m <;> simp only [Page.read] <;> split_ifs <;> (try simp only [Reader.push]) <;>
      first
        | exact Grafted.later _ _ _ _ _ _
        | (simp only [List.cons_append, List.append_assoc]; exact Grafted.later _ _ _ _ _ _)

theorem grafted_fold {D : List (Elem Char)} {tag : List Char} {attrs : List (List Char × List Char)} (l : List Char) :
    ∀ {r r' : Reader Char}, Grafted D tag attrs r r' → Grafted D tag attrs (l.foldl read r) (l.foldl read r') := by
  induction l with
  | nil => intro r r' h; exact h
  | cons c l ih => intro r r' h; exact ih (grafted_read h c)

theorem grafted_nodes {D : List (Elem Char)} {tag : List Char} {attrs : List (List Char × List Char)} {r r' : Reader Char}
    (h : Grafted D tag attrs r r') : ∃ e es, Reader.nodes r = e :: es ∧ Reader.nodes r' =
      D.map Elem.node ++ (⟨String.ofList tag, attrs.map (fun a => (String.ofList a.1, String.ofList (readText a.2))), e.text⟩ : Node) :: es ∧
      r.mode = r'.mode ∧ r.key = r'.key ∧ r.val = r'.val := by
  cases h with
  | first t => exact ⟨_, [], rfl, by simp [Reader.nodes, Elem.node], rfl, rfl, rfl⟩
  | later t es cur m k v => exact ⟨_, _, rfl, by simp [Reader.nodes, Elem.node], rfl, rfl, rfl⟩

/-- A document in a list item. -/
theorem markup_item (s : List Char) (h : Finished s) :
    Whole ("<li>".toList ++ s ++ "</li>".toList) (⟨"li", [], ((Page.nodes s).headD ⟨"", [], ""⟩).text⟩ :: (Page.nodes s).tail ++ [⟨"/li", [], ""⟩]) := by
  have h1 : Whole ("<li>".toList ++ s) (⟨"li", [], ((Page.nodes s).headD ⟨"", [], ""⟩).text⟩ :: (Page.nodes s).tail) := by
    intro x hx
    have hx1 : ("<li>".toList).foldl read x = ⟨x.done ++ [x.cur], ⟨"li".toList, [], []⟩, .text, [], []⟩ := by
      obtain ⟨m, k, v⟩ := hx
      show ['<', 'l', 'i', '>'].foldl read x = ⟨x.done ++ [x.cur], ⟨['l', 'i'], [], []⟩, .text, [], []⟩
      simp [Page.read, m, k, v, isSpace]
    rw [List.foldl_append, hx1]
    have hg := grafted_fold s (Grafted.first (D := x.done ++ [x.cur]) (tag := "li".toList) (attrs := []) [])
    obtain ⟨e, es, h2, h3, h4, h5, h6⟩ := grafted_nodes hg
    obtain ⟨m, k, v⟩ := finished_rest h
    refine ⟨⟨h4.symm.trans m, h5.symm.trans k, h6.symm.trans v⟩, ?_⟩
    rw [h3]
    have : Page.nodes s = e :: es := h2
    rw [this]
    simp [Reader.nodes]
  refine h1.append ?_
  exact lines_whole' (fun _ => "") ["</li>"] [⟨"/li", [], ""⟩] (by decide +kernel)

end Hyperreal.Pages
