import Verif.Spec.Search
import Verif.Spec.Screen
import Verif.Spec.PageTags
import Verif.Model.Pages

/-! # Specification vocabulary for the overview and the results of a search on the screen -/

namespace Hyperreal.Spec.Page
open Web Pages

variable {α σ : Type} [LinearOrder σ]

/-- What a browser shows of the answers of `AnswersSearches`: every page can be made; the overview is read as the tags of its template;
a page with results is read as the same page without them, and one box that gives the number of documents found and lists the
chosen ones, each as `item` says.  A page without results has no such box.  `feature` is the filter that the links of the page
of a cluster carry on. -/
structure ShowsSearches (ask : Request → Nat → Migrate.File × Answer σ) (shows : α → String → Val → Prop) (docs : List α)
    (key : α → Val) (render : α → String) (rd : Rat → σ) (db : DB)
    (fmt : Format σ) (asDoc : String → Html.Doc) (item : α → List Node → Prop) : Prop where
  overview : ∃ p html, (ask (.get "/index/0") 2).2 = .index p ∧ IsOverviewPage shows docs db 40 p ∧
    indexHtml fmt asDoc "0" p = some html ∧ nodes html = indexPageTags fmt asDoc "0" p
  found : ∀ field text, (∃ d ∈ docs, shows d field (.text text)) →
    ∃ p html, (ask (searchForm "0" none field text) 3).2 = .index p ∧ IsSearchPage shows docs key render rd db field (.text text) 5 40 p ∧
      indexHtml fmt asDoc "0" p = some html ∧
      Displays (fun d => shows d field (.text text)) docs item 5 (indexPageTags fmt asDoc "0" { p with results := .nothing }) (nodes html)
  missing : ∀ field text, (¬ ∃ d ∈ docs, shows d field (.text text)) →
    (ask (searchForm "0" none field text) 3).2 = .failed .keyError ∨
    ∃ p html, (ask (searchForm "0" none field text) 3).2 = .index p ∧ IsOverviewPage shows docs db 40 p ∧
      indexHtml fmt asDoc "0" p = some html ∧ nodes html = indexPageTags fmt asDoc "0" p
  within : ∀ c field text, c ≠ 0 → (∃ fl x, ValueIn db fl x c) →
    ((∃ d ∈ docs, shows d field (.text text)) → (ask (searchForm "0" (some c) field text) 3).2 ≠ .failed .keyError) ∧
    ((ask (searchForm "0" (some c) field text) 3).2 = .failed .keyError ∨
      ∃ p, (ask (searchForm "0" (some c) field text) 3).2 = .cluster p ∧
        IsFilteredPage shows docs key render db field (.text text) c 30 p ∧ ∀ feature, ∃ html, clusterHtml fmt asDoc "0" feature p = some html ∧
          DisplaysIfAny (fun d => shows d field (.text text) ∧ InCluster shows db d c) docs item 30
            (clusterPageTags fmt asDoc "0" feature { p with results := .nothing }) (nodes html))

end Hyperreal.Spec.Page
