import Verif.Py.Dict
import Verif.RUCache.Props
import Verif.LineCache.Props
import Verif.Options.Props
import Verif.Names.Props
import Verif.Signature.Props
import Verif.Labels.Props
import Verif.Heap.Props
import Verif.Heap.Props3
import Verif.Agg.Props
import Verif.Agg.Props2
import Verif.Reducers.Props
import Verif.Join.Props
import Verif.Expr.Props
import Verif.Expr.Props5
import Verif.Expr.Props6
import Verif.Text.Props
import Verif.GroupKeys.Props
import Verif.Exec.Props
import Verif.Lazy.Props
import Verif.Lazy.Filter
import Verif.Text.ParseEnd
import Verif.Stmt.AggClass
import Verif.Stmt.AggLink
import Verif.Stmt.AggCall
import Verif.Stmt.GroupRun
import Verif.Stmt.AggTop
import Verif.Text.SubstParse
import Verif.Stmt.TemplateBlock
import Verif.Stmt.TemplateActs
import Verif.Stmt.AggParam
import Verif.Stmt.Props
import Verif.Stmt.Refuted
import Verif.Stmt.Sharing
import Verif.JoinGen.Props
import Verif.Stmt.TemplateSum
import Verif.Heap.Props4
import Verif.Construct.Props
import Verif.Stmt.RunFacts
import Verif.Labels.Props2
import Verif.JoinGen.Shared
import Verif.JoinNames.Props
import Verif.Stmt.CustomDemo
import Verif.Stmt.MixedDemo
import Verif.Stmt.InlineRedDemo
import Verif.Stmt.ArgsRedDemo
import Verif.Inline.Props
import Verif.Inline.Fields
import Verif.Inline.OpProps
