import Verif.Spec.PipelineSx

/-!
# Specification vocabulary for the dumps of several sites
-/

namespace Hyperreal.Spec
open SX (Dump PostRow)

/-- A question or answer of one of several dumps: the dump, the url of its site, the number of the site (from 1), and the row. -/
structure SitePost where
  dump : Dump
  url : String
  site : Nat
  row : PostRow

/-- The questions and answers of the dumps, one dump after the other. -/
def allPosts (sites : List (Dump × String)) : List SitePost :=
  sites.zipIdx.flatMap (fun x => (considered x.1.1).map (fun r => ⟨x.1.1, x.1.2, x.2 + 1, r⟩))

/-- The document a question or answer of a dump stands for: nothing of the other dumps enters. -/
def SitePost.doc (p : SitePost) : SX.Doc := docFrom p.dump p.url p.site p.row

/-- The number of questions and answers, of all dumps, that show the value `w` in the field. -/
noncomputable def sitePostsWith (t : SX.TextOps) (sites : List (Dump × String)) (field w : String) : Nat :=
  howMany (fun p => SxShows t p.doc field w) (allPosts sites)

/-- The `n`-th question or answer (from 0, through all dumps) shows a value that the model has in cluster `c`. -/
def SitePostIn (t : SX.TextOps) (sites : List (Dump × String)) (model : DB) (c : Int) (n : Nat) : Prop :=
  ∃ p field w, (allPosts sites)[n]? = some p ∧ SxShows t p.doc field w ∧ ValueIn model field (.text w) c

/-- Dumps that can be put into one corpus: each is tidy and readable, and no two are of the same site. -/
structure SitesReadable (t : SX.TextOps) (sites : List (Dump × String)) : Prop where
  urls : (sites.map (·.2)).Nodup
  tidy : ∀ x ∈ sites, Tidy x.1
  readable : ∀ x ∈ sites, DumpReadable t x.1

end Hyperreal.Spec
