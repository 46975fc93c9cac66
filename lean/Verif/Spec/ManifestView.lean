import Verif.Model.ManifestView

namespace Abq

/-- The tests of `items` whose owner in `tags` is `tag`, in order. -/
def ownedBy {T : Type} (tag : Tag) (items : List T) (tags : List Tag) : List T :=
  ((items.zip tags).filter (fun p => p.2 == tag)).map Prod.fst

end Abq
