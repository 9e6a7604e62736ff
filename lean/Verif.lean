import Verif.Tea.Key
import Verif.TextArea.Props
import Verif.TextArea.Words
import Verif.TextArea.ViewProps
import Verif.Render.Props
import Verif.Render.StartProps
import Verif.Render.WireProps
import Verif.Render.Pool
import Verif.Viewport.Props
import Verif.Viewport.Keys
import Verif.ListC.Props
import Verif.ListC.Keys
import Verif.ListC.View
import Verif.Choice.Props
import Verif.Choice.Keys
import Verif.Choice.ViewModel
import Verif.Choice.ViewProps
import Verif.Table.Props
import Verif.Table.Keys
import Verif.TextInput.Props
import Verif.TextInput.Keys
import Verif.TextInput.BindProps
import Verif.Tea.InlineProps
import Verif.Tea.InlineTermModel
import Verif.Tea.InlineTermProps
import Verif.Tea.ScreenProps
import Verif.Tea.ProgramProps
import Verif.Tea.SuspendProps
import Verif.Tea.ReportProps
import Verif.Tea.ResumeProps
import Verif.Tea.AfterProps
import Verif.Tea.LifeProps
import Verif.Tea.ReaderProps
import Verif.Tea.CancelProps
import Verif.Tea.ShutdownProps
import Verif.Tea.ReadErrorProps
import Verif.Mouse.Props
import Verif.Mouse.ModeProps
import Verif.Mouse.InputProps
import Verif.Layout.Props
import Verif.Style.ColorProps
import Verif.Style.TextProps
import Verif.Style.ThemeProps
import Verif.Style.PaintProps
import Verif.Style.BuilderProps
import Verif.Clipboard.HistoryProps
import Verif.Clipboard.Osc52Props
import Verif.Clipboard.HtmlProps
import Verif.Clipboard.RtfProps
import Verif.Progress.Props
import Verif.Modal.Props
import Verif.Confirm.Props
import Verif.Form.Props
import Verif.Form.ViewModel
import Verif.Form.ViewProps
import Verif.Core.Props
import Verif.Core.DepthProps
import Verif.Terminal.ModesProps
import Verif.Terminal.AnsiProps
import Verif.Terminal.ReadbackProps
import Verif.Terminal.InfoProps
import Verif.Tea.MoreProps
import Verif.Tea.PublicProps
import Verif.Tea.TtyProps
import Verif.Tea.Widths
import Verif.Clipboard.WinProps
import Verif.Clipboard.ConvProps
import Verif.Clipboard.SelectProps
import Verif.Clipboard.StyledProps
import Verif.Layout.BuilderProps
import Verif.Layout.PictureProps
import Verif.Layout.FlexProps
import Verif.Tea.TypingProps
import Verif.Tea.KeyScreenProps
import Verif.Tea.EditorProps
import Verif.Tea.PictureProps
import Verif.Tea.EditorScreen
import Verif.Tea.AreaScreen
import Verif.Tea.AreaTyped
import Verif.Tea.DialogInst
import Verif.Tea.DialogScreen
import Verif.Confirm.ViewModel
import Verif.Confirm.ViewProps
import Verif.Tea.ListScreen
import Verif.Tea.TableScreen
import Verif.Tea.SpinProps
import Verif.Tea.FormProps
import Verif.Tea.FormScreen
import Verif.Tea.ModalProps
import Verif.Tea.ModalScreen
import Verif.Tea.ModalRepaint
import Verif.Modal.ViewModel
import Verif.Modal.ViewProps
