import Verif.Props.Base64
import Verif.Props.Unicode
import Verif.Props.Names
import Verif.Props.Text
import Verif.Props.Uri
import Verif.Props.Sax
import Verif.Props.Dom
import Verif.Props.DomText
import Verif.Props.XPathValue
import Verif.Props.XsltPrecedence
import Verif.Props.XsltSort
import Verif.Props.XsltOutput
import Verif.Props.XsltTemplates
import Verif.Props.XsltVariables
import Verif.Props.XPathAxes
import Verif.Props.XPathNodeSet
import Verif.Props.XPathPath
import Verif.Props.XPathParse
import Verif.Props.XPathMatch
import Verif.Props.XPathEval
import Verif.Props.XPathTemplate
import Verif.Props.TreeWalker
import Verif.Props.TagList
import Verif.Props.SaxFilter
import Verif.Props.Writer
import Verif.Props.DomStream
import Verif.Props.DomNames
import Verif.Props.AttrMap
import Verif.Props.Events
import Verif.Props.Taggle
import Verif.Props.Clone
import Verif.Props.Sax2Dom
import Verif.Props.Expat
import Verif.Props.XsltSink
import Verif.Props.XsltKey
import Verif.Props.XsltRun
import Verif.Props.XsltCompile
import Verif.Props.XsltProcess
import Verif.Props.XsltDomSink
import Verif.Props.XsltVariableContent
import Verif.Props.XsltInclude
import Verif.Props.ConvertAdaptor
import Verif.Props.SaxReader
import Verif.Props.XsltAvailable
import Verif.Props.XsltAlias
import Verif.Props.InputSource
import Verif.Props.Dtd
import Verif.Props.Socket
import Verif.Props.DefaultAttr
import Verif.Props.IStreamHandle
import Verif.Props.ElementId
import Verif.Props.ExternalEntity
import Verif.Props.ParseLoop
import Verif.Props.XsltOutputDecl
import Verif.Props.XsltMessage
