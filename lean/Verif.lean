import Verif.Model.Basic
import Verif.Model.Block
import Verif.Model.Boxes
import Verif.Model.Color
import Verif.Model.Construct
import Verif.Model.Derive
import Verif.Model.Device
import Verif.Model.Dom
import Verif.Model.Font
import Verif.Model.Fragments
import Verif.Model.GContext
import Verif.Model.Geom
import Verif.Model.HtmlGrob
import Verif.Model.Inline
import Verif.Model.JumpTable
import Verif.Model.Length
import Verif.Model.Markdown
import Verif.Model.Paint
import Verif.Model.RHeap
import Verif.Model.Render
import Verif.Model.RenderCall
import Verif.Model.Segment
import Verif.Model.SelectorMatch
import Verif.Model.Selectors
import Verif.Model.SheetSyntax
import Verif.Model.Style
import Verif.Model.StyleHeap
import Verif.Model.UserAgent
import Verif.Model.Values
import Verif.Spec.AlignDrawn
import Verif.Spec.Append
import Verif.Spec.Block
import Verif.Spec.Boxes
import Verif.Spec.Colours
import Verif.Spec.Composed
import Verif.Spec.Decor
import Verif.Spec.Derive
import Verif.Spec.Edited
import Verif.Spec.EditedContent
import Verif.Spec.Fewest
import Verif.Spec.FloatMarks
import Verif.Spec.Floats
import Verif.Spec.Forest
import Verif.Spec.Grouped
import Verif.Spec.GroupedContent
import Verif.Spec.Horizontal
import Verif.Spec.Inline
import Verif.Spec.Newline
import Verif.Spec.NewlineDoc
import Verif.Spec.NewlineLines
import Verif.Spec.Page
import Verif.Spec.PageHeight
import Verif.Spec.Paint
import Verif.Spec.Pinned
import Verif.Spec.PreDrawn
import Verif.Spec.Pruned
import Verif.Spec.PrunedContent
import Verif.Spec.RHeap
import Verif.Spec.Read
import Verif.Spec.Relative
import Verif.Spec.Respaced
import Verif.Spec.Rows
import Verif.Spec.SameStyles
import Verif.Spec.SameTree
import Verif.Spec.Selectors
import Verif.Spec.SheetSyntax
import Verif.Spec.Spanned
import Verif.Spec.SpannedContent
import Verif.Spec.Specificity
import Verif.Spec.Stands
import Verif.Spec.Style
import Verif.Spec.Text
import Verif.Spec.UserAgent
import Verif.Spec.Vertical
import Verif.Spec.Wider
import Verif.Spec.Zoom
import Verif.Lemmas.Append
import Verif.Lemmas.AppendBlocks
import Verif.Lemmas.AppendContent
import Verif.Lemmas.AppendLayout
import Verif.Lemmas.Block
import Verif.Lemmas.BlockLayout
import Verif.Lemmas.BoxRuns
import Verif.Lemmas.BoxSound
import Verif.Lemmas.Cascade
import Verif.Lemmas.Color
import Verif.Lemmas.Colours
import Verif.Lemmas.Composed
import Verif.Lemmas.Construct
import Verif.Lemmas.ConstructBoxes
import Verif.Lemmas.ConstructFuel
import Verif.Lemmas.ConstructGood
import Verif.Lemmas.ConstructInk
import Verif.Lemmas.ConstructText
import Verif.Lemmas.ConstructWords
import Verif.Lemmas.DecorBoxes
import Verif.Lemmas.DecorLayout
import Verif.Lemmas.Dom
import Verif.Lemmas.DomLegal
import Verif.Lemmas.DomSink
import Verif.Lemmas.Edited
import Verif.Lemmas.EditedContent
import Verif.Lemmas.FloatMarks
import Verif.Lemmas.Fuel
import Verif.Lemmas.Grouped
import Verif.Lemmas.GroupedContent
import Verif.Lemmas.Inline
import Verif.Lemmas.InlineCtx
import Verif.Lemmas.Newline
import Verif.Lemmas.PageChars
import Verif.Lemmas.Parse
import Verif.Lemmas.Pinned
import Verif.Lemmas.PinnedContent
import Verif.Lemmas.Pruned
import Verif.Lemmas.PrunedContent
import Verif.Lemmas.RHeap
import Verif.Lemmas.Read
import Verif.Lemmas.ReadDoc
import Verif.Lemmas.ReadInk
import Verif.Lemmas.ReadWords
import Verif.Lemmas.Respaced
import Verif.Lemmas.RowsBoxes
import Verif.Lemmas.RowsLayout
import Verif.Lemmas.SameContent
import Verif.Lemmas.SameTree
import Verif.Lemmas.Segment
import Verif.Lemmas.SelectorMatch
import Verif.Lemmas.Spanned
import Verif.Lemmas.SpannedContent
import Verif.Lemmas.Stands
import Verif.Lemmas.Style
import Verif.Lemmas.TextFragments
import Verif.Lemmas.Upright
import Verif.Lemmas.UserAgent
import Verif.Lemmas.Vertical
import Verif.Lemmas.Wider
import Verif.Lemmas.Zoom
import Verif.Lemmas.ZoomBoxes
import Verif.Props.AlignDrawn
import Verif.Props.Append
import Verif.Props.AppendDoc
import Verif.Props.Block
import Verif.Props.Cascade
import Verif.Props.Color
import Verif.Props.Colours
import Verif.Props.Composed
import Verif.Props.Construct
import Verif.Props.Decor
import Verif.Props.Derive
import Verif.Props.Device
import Verif.Props.Dom
import Verif.Props.Edited
import Verif.Props.EditedDoc
import Verif.Props.Fewest
import Verif.Props.Floats
import Verif.Props.GContext
import Verif.Props.Geom
import Verif.Props.Grouped
import Verif.Props.GroupedDoc
import Verif.Props.Held
import Verif.Props.Horizontal
import Verif.Props.HtmlGrob
import Verif.Props.Inline
import Verif.Props.JumpTable
import Verif.Props.Markdown
import Verif.Props.Memory
import Verif.Props.Newline
import Verif.Props.NewlineDoc
import Verif.Props.NewlineLines
import Verif.Props.PageHeight
import Verif.Props.Paint
import Verif.Props.Pinned
import Verif.Props.Positioned
import Verif.Props.PreDrawn
import Verif.Props.Pruned
import Verif.Props.Read
import Verif.Props.Relative
import Verif.Props.Render
import Verif.Props.RenderCall
import Verif.Props.Respaced
import Verif.Props.Rows
import Verif.Props.SameStyles
import Verif.Props.SameTree
import Verif.Props.Selectors
import Verif.Props.SheetSyntax
import Verif.Props.Sheets
import Verif.Props.Spanned
import Verif.Props.Specificity
import Verif.Props.Stands
import Verif.Props.Style
import Verif.Props.StyleHeap
import Verif.Props.Supported
import Verif.Props.Text
import Verif.Props.TextSpace
import Verif.Props.Units
import Verif.Props.UserAgent
import Verif.Props.Values
import Verif.Props.Vertical
import Verif.Props.Wider
import Verif.Props.Zoom
