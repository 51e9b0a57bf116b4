import Verif.Model.AppMain
import Verif.Model.Area
import Verif.Model.Ask
import Verif.Model.AskShow
import Verif.Model.Background
import Verif.Model.Basic
import Verif.Model.Chooser
import Verif.Model.Code
import Verif.Model.Composite
import Verif.Model.CropFail
import Verif.Model.CropTty
import Verif.Model.Dialog
import Verif.Model.EventLoop
import Verif.Model.EventSource
import Verif.Model.FieldCopy
import Verif.Model.FieldStyle
import Verif.Model.Fit
import Verif.Model.FitApp
import Verif.Model.Fitter
import Verif.Model.Float
import Verif.Model.FmtText
import Verif.Model.Form
import Verif.Model.Input
import Verif.Model.InputField
import Verif.Model.Keyboard
import Verif.Model.ListView
import Verif.Model.LiveEdit
import Verif.Model.Pager
import Verif.Model.PagerMain
import Verif.Model.Parse
import Verif.Model.Print
import Verif.Model.Progress
import Verif.Model.ProgressFloat
import Verif.Model.RawMode
import Verif.Model.Rect
import Verif.Model.Release
import Verif.Model.ReleaseArea
import Verif.Model.ReleaseField
import Verif.Model.ReleaseFit
import Verif.Model.ReleaseList
import Verif.Model.ReleaseRect
import Verif.Model.ReleaseView
import Verif.Model.Render
import Verif.Model.Serde
import Verif.Model.SkinOps
import Verif.Model.Spacing
import Verif.Model.Style
import Verif.Model.Table
import Verif.Model.TblFit
import Verif.Model.Template
import Verif.Model.TextView
import Verif.Model.Ticker
import Verif.Model.TickerTime
import Verif.Model.Tty
import Verif.Model.Wrap
import Verif.Model.Write
import Verif.Spec.AppEditor
import Verif.Spec.AppMain
import Verif.Spec.Area
import Verif.Spec.Ask
import Verif.Spec.Background
import Verif.Spec.Borders
import Verif.Spec.Breaks
import Verif.Spec.Cells
import Verif.Spec.Chooser
import Verif.Spec.Chunks
import Verif.Spec.Code
import Verif.Spec.CodeRect
import Verif.Spec.ContentAlign
import Verif.Spec.ContentHistory
import Verif.Spec.Crash
import Verif.Spec.Crop
import Verif.Spec.CropTty
import Verif.Spec.Dialog
import Verif.Spec.Displayed
import Verif.Spec.Editor
import Verif.Spec.EventLoop
import Verif.Spec.EventSource
import Verif.Spec.FewestLines
import Verif.Spec.FieldCopy
import Verif.Spec.FieldSession
import Verif.Spec.FieldStyle
import Verif.Spec.FitApp
import Verif.Spec.Fitter
import Verif.Spec.Float
import Verif.Spec.FmtText
import Verif.Spec.Form
import Verif.Spec.Hanging
import Verif.Spec.Input
import Verif.Spec.InputField
import Verif.Spec.InputOps
import Verif.Spec.LineEditor
import Verif.Spec.Lines
import Verif.Spec.ListCursor
import Verif.Spec.ListView
import Verif.Spec.ListViewCycle
import Verif.Spec.LiveEdit
import Verif.Spec.Pager
import Verif.Spec.PagerMain
import Verif.Spec.Panics
import Verif.Spec.Parse
import Verif.Spec.Password
import Verif.Spec.Plain
import Verif.Spec.Print
import Verif.Spec.Progress
import Verif.Spec.Rect
import Verif.Spec.Release
import Verif.Spec.ReleaseField
import Verif.Spec.ReleaseList
import Verif.Spec.ReleaseRect
import Verif.Spec.Render
import Verif.Spec.Rendering
import Verif.Spec.Screen
import Verif.Spec.SelectEditor
import Verif.Spec.Serde
import Verif.Spec.SerdeEntries
import Verif.Spec.SkinFile
import Verif.Spec.SkinHistory
import Verif.Spec.SkinRender
import Verif.Spec.Special
import Verif.Spec.Strokes
import Verif.Spec.Style
import Verif.Spec.Styled
import Verif.Spec.StyledDisplay
import Verif.Spec.Table
import Verif.Spec.TblFit
import Verif.Spec.TblFitFair
import Verif.Spec.Template
import Verif.Spec.TextView
import Verif.Spec.Ticker
import Verif.Spec.TickerTime
import Verif.Spec.Tty
import Verif.Spec.Used
import Verif.Spec.WholeLines
import Verif.Spec.WholeText
import Verif.Lemmas.Bytes
import Verif.Lemmas.Code
import Verif.Lemmas.ContentHistory
import Verif.Lemmas.Editor
import Verif.Lemmas.EventSource
import Verif.Lemmas.EventSourceRun
import Verif.Lemmas.FewestLines
import Verif.Lemmas.Fit
import Verif.Lemmas.Fitter
import Verif.Lemmas.FmtText
import Verif.Lemmas.Input
import Verif.Lemmas.Input2
import Verif.Lemmas.InputField
import Verif.Lemmas.InputField2
import Verif.Lemmas.InputField3
import Verif.Lemmas.ListView
import Verif.Lemmas.ListViewDisplay
import Verif.Lemmas.Panics
import Verif.Lemmas.Parse
import Verif.Lemmas.ParseCase
import Verif.Lemmas.ParseTokens
import Verif.Lemmas.Password
import Verif.Lemmas.PasswordField
import Verif.Lemmas.Release
import Verif.Lemmas.ReleaseField
import Verif.Lemmas.Render
import Verif.Lemmas.SameShape
import Verif.Lemmas.SelectEditor
import Verif.Lemmas.SkinRender
import Verif.Lemmas.Sort
import Verif.Lemmas.Table
import Verif.Lemmas.TblFit
import Verif.Lemmas.TblFitFair
import Verif.Lemmas.TextView
import Verif.Lemmas.Ticker
import Verif.Lemmas.TickerHandles
import Verif.Lemmas.TickerTime
import Verif.Lemmas.Wrap
import Verif.Lemmas.WrapBreaks
import Verif.Lemmas.WrapLines
import Verif.Props.AppEditor
import Verif.Props.AppMain
import Verif.Props.AppShown
import Verif.Props.Area
import Verif.Props.Ask
import Verif.Props.AskShow
import Verif.Props.AttributeWords
import Verif.Props.Background
import Verif.Props.Borders
import Verif.Props.Cells
import Verif.Props.Chooser
import Verif.Props.Chunks
import Verif.Props.Code
import Verif.Props.CodeRect
import Verif.Props.ColorParse
import Verif.Props.ContentAlign
import Verif.Props.ContentHistory
import Verif.Props.Crash
import Verif.Props.CrashRepair
import Verif.Props.CropFail
import Verif.Props.CropTty
import Verif.Props.Dialog
import Verif.Props.Displayed
import Verif.Props.Editor
import Verif.Props.EventLoop
import Verif.Props.EventSource
import Verif.Props.EventSourceLive
import Verif.Props.FewestLines
import Verif.Props.FieldCopy
import Verif.Props.FieldKept
import Verif.Props.FieldOpPanics
import Verif.Props.FieldPanics
import Verif.Props.FieldSession
import Verif.Props.FieldStyle
import Verif.Props.Fit
import Verif.Props.FitApp
import Verif.Props.Fitter
import Verif.Props.FitterMiddle
import Verif.Props.FitterPanics
import Verif.Props.Float
import Verif.Props.FmtText
import Verif.Props.Form
import Verif.Props.FormClip
import Verif.Props.FormLate
import Verif.Props.FormScreen
import Verif.Props.Hanging
import Verif.Props.Input
import Verif.Props.InputField
import Verif.Props.Keyboard
import Verif.Props.LineEditor
import Verif.Props.ListCells
import Verif.Props.ListCursor
import Verif.Props.ListHeader
import Verif.Props.ListView
import Verif.Props.ListViewCycle
import Verif.Props.ListViewDisplay
import Verif.Props.ListViewSelect
import Verif.Props.ListViewWidths
import Verif.Props.LiveClip
import Verif.Props.LiveEdit
import Verif.Props.Pager
import Verif.Props.PagerMain
import Verif.Props.Panics
import Verif.Props.Parse
import Verif.Props.Password
import Verif.Props.Plain
import Verif.Props.Print
import Verif.Props.Progress
import Verif.Props.ProgressFloat
import Verif.Props.RawMode
import Verif.Props.ReadAll
import Verif.Props.Rect
import Verif.Props.Release
import Verif.Props.ReleaseArea
import Verif.Props.ReleaseField
import Verif.Props.ReleaseFit
import Verif.Props.ReleaseList
import Verif.Props.ReleaseRect
import Verif.Props.ReleaseView
import Verif.Props.Render
import Verif.Props.Rendering
import Verif.Props.ScrollPanics
import Verif.Props.SelectEditor
import Verif.Props.Serde
import Verif.Props.SerdeEntries
import Verif.Props.SerdeText
import Verif.Props.Setters
import Verif.Props.SkinFile
import Verif.Props.SkinHistory
import Verif.Props.SkinRender
import Verif.Props.Spacing
import Verif.Props.Special
import Verif.Props.Strokes
import Verif.Props.Style
import Verif.Props.StyleLayout
import Verif.Props.StyledDisplay
import Verif.Props.Table
import Verif.Props.TblFit
import Verif.Props.TblFitFair
import Verif.Props.Template
import Verif.Props.TextView
import Verif.Props.Ticker
import Verif.Props.TickerTime
import Verif.Props.Tty
import Verif.Props.Undo
import Verif.Props.Used
import Verif.Props.WholeLines
import Verif.Props.WholeText
import Verif.Props.Wrap
import Verif.Props.WrapBreaks
import Verif.Props.Write
import Verif.Conformance
