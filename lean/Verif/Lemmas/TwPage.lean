import Verif.Lemmas.SxPage
import Verif.Spec.TwPage

/-! # Reading a tweet -/

namespace Hyperreal.Pages
open Spec Spec.Page

/-- A time. -/
def timePiece (v y : List Char) : List Char := "<time datetime=\"".toList ++ v ++ '"' :: '>' :: y

theorem time_text (v y : List Char) (hv : '"' ∉ v) (hy : '<' ∉ y) :
    Whole (timePiece v y) [⟨"time", [("datetime", String.ofList (readText v))], String.ofList (readText y)⟩] := by
  intro x hx
  have hx1 : timePiece v y = ("<time datetime=\"".toList ++ v ++ ['"', '>']) ++ y := by
    unfold timePiece
    generalize "<time datetime=\"".toList = a
    simp
  have hx2 : ("<time datetime=\"".toList ++ v ++ ['"', '>']).foldl read x =
      ⟨x.done ++ [x.cur], ⟨"time".toList, [("datetime".toList, v)], []⟩, .text, [], []⟩ := by
    obtain ⟨m, k, w⟩ := hx
    rw [List.foldl_append, List.foldl_append]
    have h1 : ("<time datetime=\"".toList).foldl read x = ⟨x.done ++ [x.cur], ⟨"time".toList, [], []⟩, .quoted, "datetime".toList, []⟩ := by
      show ['<', 't', 'i', 'm', 'e', ' ', 'd', 'a', 't', 'e', 't', 'i', 'm', 'e', '=', '"'].foldl read x =
        ⟨x.done ++ [x.cur], ⟨['t', 'i', 'm', 'e'], [], []⟩, .quoted, ['d', 'a', 't', 'e', 't', 'i', 'm', 'e'], []⟩
      simp [Page.read, m, k, w, isSpace]
    rw [h1, read_quoted v _ rfl (fun c hc e => hv (e ▸ hc))]
    simp [Page.read, Reader.push]
  rw [hx1, List.foldl_append, hx2]
  have := graft_whole (x := x) (tag := "time".toList) (attrs := [("datetime".toList, v)]) (finished_text hy).1
  rw [(finished_text hy).2] at this
  simpa using this

/-- An image. -/
def imagePiece (v : List Char) : List Char := "<img src=".toList ++ v ++ ['>']

theorem image_whole (v : List Char) (hv : ∀ c ∈ v, c ≠ '"' ∧ c ≠ '>' ∧ isSpace c = false) :
    Whole (imagePiece v) [⟨"img", [("src", String.ofList (readText v))], ""⟩] := by
  intro x hx
  have hx2 : (imagePiece v).foldl read x = ⟨x.done ++ [x.cur], ⟨"img".toList, [("src".toList, v)], []⟩, .text, [], []⟩ := by
    obtain ⟨m, k, w⟩ := hx
    unfold imagePiece
    rw [List.foldl_append, List.foldl_append]
    have h1 : ("<img src=".toList).foldl read x = ⟨x.done ++ [x.cur], ⟨"img".toList, [], []⟩, .value, "src".toList, []⟩ := by
      show ['<', 'i', 'm', 'g', ' ', 's', 'r', 'c', '='].foldl read x =
        ⟨x.done ++ [x.cur], ⟨['i', 'm', 'g'], [], []⟩, .value, ['s', 'r', 'c'], []⟩
      simp [Page.read, m, k, w, isSpace]
    rw [h1]
    cases v with
    | nil => simp [Page.read, Reader.push]
    | cons c v =>
      obtain ⟨c1, c2, c3⟩ := hv c (by simp)
      rw [List.foldl_cons (l := v)]
      have : read ⟨x.done ++ [x.cur], ⟨"img".toList, [], []⟩, .value, "src".toList, []⟩ c =
          ⟨x.done ++ [x.cur], ⟨"img".toList, [], []⟩, .bare, "src".toList, [c]⟩ := by simp [Page.read, c1, c2, c3]
      rw [this, read_bare v _ rfl (fun d hd => ⟨(hv d (by simp [hd])).2.1, (hv d (by simp [hd])).2.2⟩)]
      simp [Page.read, Reader.push]
  rw [hx2]
  refine ⟨⟨rfl, rfl, rfl⟩, ?_⟩
  simp [Reader.nodes, Elem.node, readText]

theorem unfinished_whole : Whole "</div </li>".toList [⟨"/div", [("<", ""), ("li", "")], ""⟩] := by
  intro x hx
  obtain ⟨m, k, w⟩ := hx
  have h1 : ("</div </li>".toList).foldl read x = ⟨x.done ++ [x.cur], ⟨"/div".toList, [("<".toList, []), ("li".toList, [])], []⟩, .text, [], []⟩ := by
    show ['<', '/', 'd', 'i', 'v', ' ', '<', '/', 'l', 'i', '>'].foldl read x =
      ⟨x.done ++ [x.cur], ⟨['/', 'd', 'i', 'v'], [(['<'], []), (['l', 'i'], [])], []⟩, .text, [], []⟩
    simp [Page.read, m, k, w, isSpace, Reader.push]
  rw [h1]
  refine ⟨⟨rfl, rfl, rfl⟩, ?_⟩
  simp only [Reader.nodes, List.map_append, List.map_cons, List.map_nil, Elem.node, readText, String.ofList_toList]

end Hyperreal.Pages
