import Verif.Model.Layout

/-!
# Printing a layout as code

`util::print_layout` prints statements that set up a layout anew; `layout_is_collision_free` calls
it when it finds a collision.
-/

namespace Jagua

variable {K : Type*} [Arith K] [LinearOrder K] {n : ℕ}

/-- The statements that are printed: the number of the bin in `Layout::new(0, instance.bin(..).clone())`,
and the number of the item and the arguments of `DTransformation::new` in every `layout.place_item`. -/
structure LayoutCode (K : Type*) where
  binId : ℕ
  places : List (ℕ × DTransf K)

/-- `d_transformation.rs:19-27` `DTransformation::new`, applied to printed numbers; `fmt` sends a number to the
value of its decimal representation in the output. -/
def DTransf.printed (fmt : K → K) (dt : DTransf K) : DTransf K := ⟨fmt dt.rotation, fmt dt.tx, fmt dt.ty⟩

/-- `util/mod.rs:15-33` `print_layout`. The text is not modelled, only the numbers in it; they are rounded to
six decimals (`{:.6}`), which is the function `fmt`. -/
def printLayout (fmt : K → K) (l : Layout K n) : LayoutCode K :=
  ⟨l.bin.id, l.placed.values.map fun pi => (pi.itemId, pi.dt.printed fmt)⟩

/-- Running the printed statements (`layout.rs:30-38` and `layout.rs:81-91`). The `&` in front of `DTransformation::new`
in the output, which `Layout::place_item` does not take, has to be deleted first. `bins` and `cat` are
`instance.bin` and `instance.item`; `addr` are the addresses of the new shapes. -/
def LayoutCode.exec (env : Env K) (bins : ℕ → Bin K n) (cat : ℕ → Item K) (addr : ℕ) (c : LayoutCode K) : Option (Layout K n) :=
  c.places.foldlM (fun l p => (l.placeItem env (addr + l.placed.len) (cat p.1) p.2).map (·.2)) (Layout.new 0 (bins c.binId))

end Jagua
