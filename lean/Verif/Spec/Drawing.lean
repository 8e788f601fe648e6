import Verif.Model.Drawing
import Verif.Spec.Network
import Verif.Spec.DivideTree

/-
Specification of the drawing of a map: what the folders of a KML document have to show
-/
namespace PyProm.Spec

/-- The placemark is in the folder of that name. -/
def InFolder (doc : KmlDoc) (name : String) (p : Placemark) : Prop := ∃ ps, (name.toList, ps) ∈ doc.folders ∧ p ∈ ps

/-- The folder for features of a type. -/
def folderName : FType → String
  | .summit => "Summits"
  | .runoff => "Runoffs"
  | .basin => "Saddles"
  | .saddle => "Saddles"
  | .spot => "SpotElevations"

/-- The text of the place of a feature. -/
def placeText (w : Wkt) (f : Feature) : List Char := w.point f.lon f.lat

/-- The text of the line between two features. -/
def lineText (w : Wkt) (a b : Feature) : List Char := w.line (a.lon, a.lat) (b.lon, b.lat)

/-- The document shows a feature of that type at the place of the feature. -/
def Drawn (w : Wkt) (doc : KmlDoc) (t : FType) (f : Feature) : Prop :=
  ∃ p, InFolder doc (folderName t) p ∧ p.kind = some t ∧ p.geometry = placeText w f

/-- The document shows a line between the features. -/
def LineDrawn (w : Wkt) (doc : KmlDoc) (a b : Feature) : Prop := ∃ p, InFolder doc "Linkers" p ∧ p.geometry = lineText w a b

/-- The type a saddle or runoff is to be shown as. -/
inductive ShownAs (fl : Flags) (k : Nat) (o : SObj) : FType → Prop
  | runoff : o.f.kind = .runoff → ShownAs fl k o .runoff
  | basin : o.f.kind ≠ .runoff → SaddleOut fl k → ShownAs fl k o .basin
  | saddle : o.f.kind ≠ .runoff → ¬ SaddleOut fl k → ShownAs fl k o .saddle

/-- The document shows the map and nothing else: each summit once with its height, each saddle and runoff as what it is, each
linker as a line between features that are shown themselves, each domain with the height of its summit. -/
structure MapDrawn (w : Wkt) (doc : KmlDoc) (m : DMap) (fl : Flags) : Prop where
  summits : ∀ p, InFolder doc "Summits" p ↔ ∃ f ∈ m.summits, p = ⟨some .summit, placeText w f, f.elevation⟩
  summitsOnce : ∀ ps, ("Summits".toList, ps) ∈ doc.folders → ps.length = m.summits.length
  saddles : ∀ k ∈ m.saddles ++ m.runoffs, ∃ o, m.st.objs[k]? = some o ∧ ∀ t, ShownAs fl k o t → Drawn w doc t o.f
  onlySaddles : ∀ p, InFolder doc "Saddles" p ∨ InFolder doc "Runoffs" p → ∃ k ∈ m.saddles ++ m.runoffs, ∃ o t,
    m.st.objs[k]? = some o ∧ ShownAs fl k o t ∧ p = ⟨some t, placeText w o.f, o.f.elevation⟩
  linkers : ∀ i ∈ m.linkers, ∃ l o f, m.st.store[i]? = some l ∧ m.st.objs[l.saddle]? = some o ∧ m.summits[l.summit]? = some f ∧
    LineDrawn w doc o.f f ∧ Drawn w doc .summit f ∧ ∀ t, ShownAs fl l.saddle o t → Drawn w doc t o.f
  onlyLines : ∀ p, InFolder doc "Linkers" p → ∃ i ∈ m.linkers, ∃ l o f, m.st.store[i]? = some l ∧
    m.st.objs[l.saddle]? = some o ∧ m.summits[l.summit]? = some f ∧ p.geometry = lineText w o.f f
  domains : ∀ p, InFolder doc "SummitDomains" p ↔ ∃ D ∈ m.domains, ∃ f, m.summits[D]? = some f ∧ p = ⟨none, w.area D, f.elevation⟩
  noSpots : ∀ p, ¬ InFolder doc "SpotElevations" p

/-- The document shows the paths `ps` around summit `D` and nothing else: the linkers, each as a line between features that are
shown themselves, summits of the region only, and no saddle that is disqualified. -/
structure RegionDrawn (w : Wkt) (doc : KmlDoc) (m : DMap) (fl : Flags) (D : Nat) (ps : List LprPath) : Prop where
  linkers : ∀ q ∈ ps, ∀ i ∈ q.path, ∃ l o f, m.st.store[i]? = some l ∧ m.st.objs[l.saddle]? = some o ∧
    m.summits[l.summit]? = some f ∧ LineDrawn w doc o.f f ∧ Drawn w doc .summit f ∧
    ∀ t, ShownAs fl l.saddle o t → Drawn w doc t o.f
  onlyLines : ∀ p, InFolder doc "Linkers" p → ∃ q ∈ ps, ∃ i ∈ q.path, ∃ l o f, m.st.store[i]? = some l ∧
    m.st.objs[l.saddle]? = some o ∧ m.summits[l.summit]? = some f ∧ p.geometry = lineText w o.f f
  start : ps ≠ [] → ∀ f, m.summits[D]? = some f → Drawn w doc .summit f
  boundary : ∀ q ∈ ps, ∃ o, m.st.objs[q.saddle]? = some o ∧ ∀ t, ShownAs fl q.saddle o t → Drawn w doc t o.f
  onlySummits : ∀ p, InFolder doc "Summits" p → ∃ b f, InRegion m.net fl D b ∧ m.summits[b]? = some f ∧
    p = ⟨some .summit, placeText w f, f.elevation⟩
  onlySaddles : ∀ p, InFolder doc "Saddles" p ∨ InFolder doc "Runoffs" p → ∃ k o t, m.st.objs[k]? = some o ∧ ShownAs fl k o t ∧
    ¬ SaddleOut fl k ∧ p = ⟨some t, placeText w o.f, o.f.elevation⟩
  noRest : ∀ p, ¬ InFolder doc "SpotElevations" p ∧ ¬ InFolder doc "SummitDomains" p

end PyProm.Spec
