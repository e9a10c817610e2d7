import Verif.Props.Scroll
import Verif.Props.Fraction
import Verif.Props.Color
import Verif.Props.Region
import Verif.Props.Canvas
import Verif.Props.CanvasDraw
import Verif.Props.Flush
import Verif.Props.FlushWide
import Verif.Props.Strip
import Verif.Props.Justify
import Verif.Props.Selector
import Verif.Props.Nesting
import Verif.Props.Cascade
import Verif.Props.Keyline
import Verif.Props.Scrollbar
import Verif.Props.Source
import Verif.Props.Horizontal
import Verif.Props.Vertical
import Verif.Props.Grid
import Verif.Props.GridTracks
import Verif.Props.GridRegions
import Verif.Props.Arrange
import Verif.Props.Layers
import Verif.Props.Markup
import Verif.Props.Fuzzy
import Verif.Props.Shorthand
import Verif.Props.Content
import Verif.Props.Tree
import Verif.Props.TreeQuery
import Verif.Props.Binding
import Verif.Props.Input
import Verif.Props.OptionList
import Verif.Props.Palette
import Verif.Props.PaletteMore
import Verif.Props.Restyle
import Verif.Props.RenderCache
import Verif.Props.RenderCacheMore
import Verif.Props.RenderCacheBorder
import Verif.Props.RenderCacheCases
import Verif.Props.Static
import Verif.Props.StaticMore
import Verif.Props.StaticCases
import Verif.Props.RenderCacheLook
import Verif.Props.StaticText
import Verif.Props.Scroller
import Verif.Props.ScrollerMoves
import Verif.Props.ScrollerMouse
import Verif.Props.ScrollerDrag
import Verif.Model.Pane
import Verif.Props.Pane
import Verif.Props.PaneMouse
import Verif.Props.PanePointer
import Verif.Props.ScrollerDragX
import Verif.Props.ScrollerSteps
import Verif.Model.Screen
import Verif.Props.Screen
import Verif.Props.ScreenBars
import Verif.Props.ScreenMouse
import Verif.Props.ScreenRows
import Verif.Model.Classes
import Verif.Props.Classes
import Verif.Props.Gutter
import Verif.Model.Press
import Verif.Spec.Press
import Verif.Props.Press
import Verif.Model.Loop
import Verif.Props.Loop
import Verif.Props.Tip
import Verif.Model.Timers
import Verif.Props.Timers
import Verif.Model.Parse
import Verif.Model.Value
import Verif.Spec.Sheet
import Verif.Spec.Values
import Verif.Lemmas.Parse
import Verif.Lemmas.Values
import Verif.Props.Parse
import Verif.Props.Values
import Verif.Props.Stylesheet
import Verif.Props.NoPanic
import Verif.Spec.Svg
import Verif.Props.Svg
import Verif.Props.Placeholder
import Verif.Props.Header
import Verif.Props.Small
import Verif.Props.Defaults
import Verif.Props.Written
import Verif.Model.Theme
import Verif.Model.Lab
import Verif.Model.ColorFn
import Verif.Spec.Theme
import Verif.Spec.Hsl
import Verif.Lemmas.Lab
import Verif.Props.Theme
import Verif.Props.Given
import Verif.Props.Contrast
import Verif.Props.Hsl
import Verif.Props.ColorText
import Verif.Model.Intrinsic
import Verif.Spec.Intrinsic
import Verif.Props.Intrinsic
import Verif.Model.Query
import Verif.Spec.Query
import Verif.Props.Query
import Verif.Model.GridWidget
import Verif.Props.GridWidget
import Verif.Model.ScrollBarWidget
import Verif.Props.ScrollBarWidget
import Verif.Model.Settings
import Verif.Props.Settings
import Verif.Props.Face
import Verif.Model.Centre
import Verif.Props.Centre
import Verif.Model.Sender
import Verif.Props.Sender
import Verif.Model.Fade
import Verif.Props.Fade
import Verif.Model.FromMarkup
import Verif.Props.FromMarkup
import Verif.Model.Provider
import Verif.Props.Provider
import Verif.Props.Ui
import Verif.Props.BarColours
import Verif.Props.Disabled
import Verif.Model.Nest
import Verif.Props.Nest
import Verif.Model.SwitchFace
import Verif.Props.SwitchFace
import Verif.Model.Frame
import Verif.Props.Frame
import Verif.Model.Lines
import Verif.Lemmas.Made
import Verif.Props.OnScreen
import Verif.Props.InTree
import Verif.Lemmas.Dressed
import Verif.Model.Look
import Verif.Props.Covers
import Verif.Props.Dividers
import Verif.Props.Bars
import Verif.Props.Tidy
import Verif.Props.ScrollSize
import Verif.Props.Typed
import Verif.Props.Units
import Verif.Props.Life
import Verif.Props.Asked
import Verif.Model.Wrap
import Verif.Props.Wrap
import Verif.Model.Pick
import Verif.Props.Pick
import Verif.Props.Reach
import Verif.Model.Typing
import Verif.Props.Typing
import Verif.Props.Snapshot
import Verif.Props.Keys
import Verif.Model.Picture
import Verif.Props.Picture
import Verif.Model.Clicks
import Verif.Props.Clicks
import Verif.Model.Tabs
import Verif.Props.Tabs
import Verif.Lemmas.Measured
import Verif.Props.Painted
import Verif.Props.OnScreenWide
import Verif.Props.LinesWide
import Verif.Lemmas.Sewn
import Verif.Props.LinkMarkup
import Verif.Model.Hidden
import Verif.Props.Hidden
import Verif.Model.LinkClicks
import Verif.Props.LinkClicks
import Verif.Model.Wheel
import Verif.Props.Wheel
import Verif.Props.PickSeen
import Verif.Props.FocusSeen
import Verif.Model.Form
import Verif.Props.Form
import Verif.Model.Pointer
import Verif.Props.Pointer
import Verif.Model.Toggles
import Verif.Props.Toggles
import Verif.Props.InTreeWide
import Verif.Props.LinkWide
import Verif.Props.NestOnce
import Verif.Model.Placeholders
import Verif.Props.Placeholders
import Verif.Model.Options
import Verif.Props.Options
import Verif.Model.Isolation
import Verif.Props.Isolation
import Verif.Model.Session
import Verif.Props.Session
import Verif.Model.HoverTold
import Verif.Props.HoverTold
