import Verif.Lemmas.Pages
import Verif.Spec.SxPage

/-! # Reading the page of a post -/

namespace Hyperreal.Pages
open Spec Spec.Page

/-- A tag without attributes, and what follows it. -/
def tagPiece (name : List Char) (y : List Char) : List Char := '<' :: name ++ '>' :: y

theorem read_name (name : List Char) (h : ∀ c ∈ name, c ≠ '>' ∧ isSpace c = false) : ∀ (D : List (Elem Char)) (t : List Char),
    name.foldl read ⟨D, ⟨t, [], []⟩, .tag, [], []⟩ = ⟨D, ⟨t ++ name, [], []⟩, .tag, [], []⟩ := by
  induction name with
  | nil => intro D t; simp
  | cons c name ih =>
    intro D t
    obtain ⟨h1, h2⟩ := h c (by simp)
    rw [List.foldl_cons]
    have : read ⟨D, ⟨t, [], []⟩, .tag, [], []⟩ c = ⟨D, ⟨t ++ [c], [], []⟩, .tag, [], []⟩ := by simp [Page.read, h1, h2]
    rw [this, ih (fun x hx => h x (by simp [hx])), List.append_assoc]
    rfl

theorem graft_whole {x : Reader Char} {tag : List Char} {attrs : List (List Char × List Char)} {s : List Char} (h : Finished s) :
    let r := s.foldl read ⟨x.done ++ [x.cur], ⟨tag, attrs, []⟩, .text, [], []⟩
    Rest r ∧ Reader.nodes r = Reader.nodes x ++
      (⟨String.ofList tag, attrs.map (fun a => (String.ofList a.1, String.ofList (readText a.2))),
        ((Page.nodes s).headD ⟨"", [], ""⟩).text⟩ :: (Page.nodes s).tail) := by
  intro r
  have hg := grafted_fold s (Grafted.first (D := x.done ++ [x.cur]) (tag := tag) (attrs := attrs) [])
  obtain ⟨e, es, h2, h3, h4, h5, h6⟩ := grafted_nodes hg
  obtain ⟨m, k, v⟩ := finished_rest h
  refine ⟨⟨h4.symm.trans m, h5.symm.trans k, h6.symm.trans v⟩, ?_⟩
  rw [h3]
  have : Page.nodes s = e :: es := h2
  rw [this]
  simp [Reader.nodes]

/-- A tag followed by anything that leaves no tag open. -/
theorem tagPiece_whole (name : List Char) (hn : ∀ c ∈ name, c ≠ '>' ∧ isSpace c = false) (s : List Char) (h : Finished s) :
    Whole (tagPiece name s) (⟨String.ofList name, [], ((Page.nodes s).headD ⟨"", [], ""⟩).text⟩ :: (Page.nodes s).tail) := by
  intro x hx
  have hx1 : tagPiece name s = ('<' :: name ++ ['>']) ++ s := by simp [tagPiece]
  have hx2 : ('<' :: name ++ ['>']).foldl read x = ⟨x.done ++ [x.cur], ⟨name, [], []⟩, .text, [], []⟩ := by
    obtain ⟨m, k, v⟩ := hx
    rw [List.cons_append, List.foldl_cons, List.foldl_append]
    have : read x '<' = ⟨x.done ++ [x.cur], ⟨[], [], []⟩, .tag, [], []⟩ := by simp [Page.read, m, k, v]
    rw [this, read_name name hn]
    simp [Page.read]
  rw [hx1, List.foldl_append, hx2]
  exact graft_whole h

theorem finished_text {y : List Char} (hy : '<' ∉ y) : Finished y ∧ Page.nodes y = [⟨"", [], String.ofList (readText y)⟩] := by
  have := read_text y start rfl (fun c hc e => hy (e ▸ hc))
  refine ⟨?_, ?_⟩
  · unfold Finished; rw [this]; rfl
  · unfold Page.nodes; rw [this]; simp [start, Elem.node, readText]

/-- A tag followed by text. -/
theorem tagPiece_text (name : String) (hn : ∀ c ∈ name.toList, c ≠ '>' ∧ isSpace c = false) (y : List Char) (hy : '<' ∉ y) :
    Whole (tagPiece name.toList y) [⟨name, [], String.ofList (readText y)⟩] := by
  have := tagPiece_whole name.toList hn y (finished_text hy).1
  rw [(finished_text hy).2, String.ofList_toList] at this
  exact this

/-- A link. -/
def linkPiece (v y : List Char) : List Char := "<a href=\"".toList ++ v ++ '"' :: '>' :: y

theorem link_text (v y : List Char) (hv : '"' ∉ v) (hy : '<' ∉ y) :
    Whole (linkPiece v y) [⟨"a", [("href", String.ofList (readText v))], String.ofList (readText y)⟩] := by
  intro x hx
  have hx1 : linkPiece v y = ("<a href=\"".toList ++ v ++ ['"', '>']) ++ y := by
    unfold linkPiece
    generalize "<a href=\"".toList = a
    simp
  have hx2 : ("<a href=\"".toList ++ v ++ ['"', '>']).foldl read x =
      ⟨x.done ++ [x.cur], ⟨"a".toList, [("href".toList, v)], []⟩, .text, [], []⟩ := by
    obtain ⟨m, k, w⟩ := hx
    rw [List.foldl_append, List.foldl_append]
    have h1 : ("<a href=\"".toList).foldl read x = ⟨x.done ++ [x.cur], ⟨"a".toList, [], []⟩, .quoted, "href".toList, []⟩ := by
      show ['<', 'a', ' ', 'h', 'r', 'e', 'f', '=', '"'].foldl read x =
        ⟨x.done ++ [x.cur], ⟨['a'], [], []⟩, .quoted, ['h', 'r', 'e', 'f'], []⟩
      simp [Page.read, m, k, w, isSpace]
    rw [h1, read_quoted v _ rfl (fun c hc e => hv (e ▸ hc))]
    simp [Page.read, Reader.push]
  rw [hx1, List.foldl_append, hx2]
  have := graft_whole (x := x) (tag := "a".toList) (attrs := [("href".toList, v)]) (finished_text hy).1
  rw [(finished_text hy).2] at this
  simpa using this

theorem deleted_whole : Whole "<Deleted User>".toList [⟨"Deleted", [("User", "")], ""⟩] := by
  intro x hx
  obtain ⟨m, k, w⟩ := hx
  have h1 : ("<Deleted User>".toList).foldl read x = ⟨x.done ++ [x.cur], ⟨"Deleted".toList, [("User".toList, [])], []⟩, .text, [], []⟩ := by
    show ['<', 'D', 'e', 'l', 'e', 't', 'e', 'd', ' ', 'U', 's', 'e', 'r', '>'].foldl read x =
      ⟨x.done ++ [x.cur], ⟨['D', 'e', 'l', 'e', 't', 'e', 'd'], [(['U', 's', 'e', 'r'], [])], []⟩, .text, [], []⟩
    simp [Page.read, m, k, w, isSpace, Reader.push]
  rw [h1]
  refine ⟨⟨rfl, rfl, rfl⟩, ?_⟩
  simp only [Reader.nodes, List.map_append, List.map_cons, List.map_nil, Elem.node, readText, String.ofList_toList]

theorem readText_plain {y : List Char} (h : '&' ∉ y) : readText y = y := by
  induction y with
  | nil => rfl
  | cons c y ih =>
    simp only [List.mem_cons, not_or] at h
    rw [readText_cons_plain c (Ne.symm h.1), ih h.2]

theorem readText_escaped (x : Option String) : String.ofList (readText (SX.escaped x)) = orNone x := by
  have := readText_append_escape (x.getD "None").toList []
  rw [List.append_nil] at this
  unfold SX.escaped orNone
  rw [this]
  simp [readText]

end Hyperreal.Pages
