[
{
"N": "8948962207650232551656602815159153422162609644098354511344597187200057010413418528378981730643524959857451398370029280583094215613882043973354392115544169",
"a": "0",
"b": "1461265191263652335611636926415143020006855505533824388835279743418822410071640441684956653114765425564153735121907092898870609910694944593682569442309955",
"x": "7417183951138537002568259392319358439880589555869986128438170859379914145634339956519783726520653796068302245952505689009834007033248063650542730015439414",
"y": "3955344152706851857180079964807996484887396501545892360643699392453491183357655179956639292472938148694037493362524020181649741711037698244012002697809206",
"q": "548041044010670129931814735449761370700141444307572693449972269410255190790226244381678606139802449080246179032174625103376192142513091849442332183737"
},
{
"N": "548041044010670129931814735449761370700141444307572693449972269410255190790226244381678606139802449080246179032174625103376192142513091849442332183737",
"a": "99862430523906114461878944842297241558996274936639112576506864978190118496130677092144834078972873641489979204307160459379519715091615957032001862578",
"b": "0",
"x": "96433561566123011625096830075224005210130452018031739430188566081260402527054767302771979812172983203919269320250008636784781367601202995922238795764",
"y": "303797168677993450516161568339719352489372822224716319403086417631624528097701844161389931292408394202695861846897001935554623972921396749567203105384",
"q": "20364188615140834197823080241147494452294197544127998418919897050024345674397330879052975812078640793205666770383759670016871962985969467783869693"
},
{
"N": "20364188615140834197823080241147494452294197544127998418919897050024345674397330879052975812078640793205666770383759670016871962985969467783869693",
"a": "19335002021304564427289797023036109933951864956171630758320698037245924054353209442766448683907352288422028236886884384868890560662960281993926165",
"b": "0",
"x": "16619268155850199928599432221990408444531783923841146077038986597755565207506889385185776255895980553605586008694644243270605882332586331823369315",
"y": "5694417725525171317578224409727885801322566477650864286786879319061632505273333861043322192422622766397375102412623601086041365525122566566446522",
"q": "2036418861514083419782308024114749445229419754412799841891989705002434566711520387281023546690435678468337064298154565973493104044588192840083121"
},
{
"N": "2036418861514083419782308024114749445229419754412799841891989705002434566711520387281023546690435678468337064298154565973493104044588192840083121",
"a": "881044470259127989712795616304324726878653842342549004934044498837654018347991378665274663050296697588502117567298017638902179175675106663650883",
"b": "0",
"x": "1769291813028860805440825822185889874034366393253808001397891533325576996159700900739691603395521781793923645184971893975380668185055559420071802",
"y": "1383024181715479233145294321489695042098851325953488763325370579864031341206381107938323984816566909854415298708621196529781124651941835974801384",
"q": "37637477663149088825922068522765407191068825238685450667508081337052440659767357084327445412711452263709188919609424813959078791774747737"
},
{
"N": "37637477663149088825922068522765407191068825238685450667508081337052440659767357084327445412711452263709188919609424813959078791774747737",
"a": "26865738760667264499672424133449411236514467294559112924437446823490161472997775843552115193978387403349517272502355322663527941939823463",
"b": "8173064840829125081577051993735520932546208977432932469526251369238309982300493050506040270215370145463015463066286004004929509682239389",
"x": "22956765333397839667217089991526158994941742852472592998769562117951439437429275752348354498432190800350251418572173187216373274206710950",
"y": "8578460726012403672674431847912795128294650135649425718279427777266564064088383996910260885805275656625778514901136934866119129889646063",
"q": "9680421209657687455226869476019909256962146409126916323947551784221224601366319374986095160724981189191444823015526670608965150896843"
},
{
"N": "9680421209657687455226869476019909256962146409126916323947551784221224601366319374986095160724981189191444823015526670608965150896843",
"a": "8629385589310829863026641723977012783840874808810041656596131456974436425315336623348281764685886988187550093216554142982454007420278",
"b": "5070866710743363179213444437693759956407601537437446474181899929791534343737635991512192898342630898246627516386027522864330875784704",
"x": "2185841441055553036238208615180898763012972445064283192949688464441577355157388531283076822026191496925297575375794123830359257714521",
"y": "3176981234723762459299484043578508394210015016580375174265046895299258100296668117871030613585864149483770059751994598492125947696906",
"q": "222661266207969625890764317692977947763413064889293318703366266082787125257501798151690734062440295242603051734694799636852917697"
},
{
"N": "222661266207969625890764317692977947763413064889293318703366266082787125257501798151690734062440295242603051734694799636852917697",
"a": "0",
"b": "200401166861477502079096500269950974465412660745001076499070617985728007865226595209747459040417851363163971547292983980122612829",
"x": "72704833343174343077045325957455919289074700840229640681781709379917725092027646479062646991273821214697453534650792403331292185",
"y": "220774424077598704577855278975881073701149490732082900309262949782929108612847795564128650828323719697844683086784113210962323820",
"q": "438309579149546507658984877348381786935852489939553776975130445013598416663570637892164766967790959758459543923164151063640671"
},
{
"N": "438309579149546507658984877348381786935852489939553776975130445013598416663570637892164766967790959758459543923164151063640671",
"a": "353788502347844235414573189289412778846926027840275774172375281941495427130046971533944472828310228595956937502200720757479051",
"b": "73830222063744155966451805499196590919658127461262176619041990049429651168815067612600782325821844912937141047486617736198150",
"x": "237238149646169524804606934612894644215136331675383138341514700464135621810680989260240887716812305417219225390795051233676187",
"y": "156328857394539139258689282083975872195170779515814015719538069291544582078825847853563567095530694927848048320872977577764361",
"q": "911295785530083762654498740780960690049467309957614708851477301664395771118927943688226141447721812671183822959132778373"
},
{
"N": "911295785530083762654498740780960690049467309957614708851477301664395771118927943688226141447721812671183822959132778373",
"a": "485019927073265814646042316084701747424552147430746572531849504982907865944965171546213970809106267441403833110014731099",
"b": "406600693969745247063412809467858865736717221885277069089554039856498448226811919828540606070411485392510352144602441084",
"x": "490499266499916362446636002386716418191177672903175629940849504458841788946764389409259609328996687644281800715169703902",
"y": "287325337465949613752376025206197125058262993829262131324112266802616809245537185003337192893670827217806516516638634398",
"q": "19302206759512068174500100414745418326897130177870344591448706342067715921189893367186705109425921226603500380351201"
},
{
"N": "19302206759512068174500100414745418326897130177870344591448706342067715921189893367186705109425921226603500380351201",
"a": "0",
"b": "17047535733185885536135720529561983725686734848328886571207452940711713804889980257636370518001537589239366075300154",
"x": "18129553545761953723762104222060091252021687407046910222608972289712795266607680552169676836151905114869840665779312",
"y": "3792778283827765851999381002305747791122852391345930826999613532437417292368297883010383952306275748797179759420190",
"q": "1947001296021224948917243084446460542164465900039706679099664223578503516383086492921601090567625047374270431"
},
{
"N": "1947001296021224948917243084446460542164465900039706679099664223578503516383086492921601090567625047374270431",
"a": "0",
"b": "1012798209395459281842180767369691302428116823811293455408647080282267438626482100331319456930785710480712327",
"x": "1794699391869502077572396589838969204737772255426366498182773990649604750949634925084212260640901334280477766",
"y": "1868087062429139153870781918950426979449260290674063245160269660070130084640381507546255806036718377809088482",
"q": "33263139034040878421637650439091261592366497362009431926071922395044751390690940848771922372871867977"
},
{
"N": "33263139034040878421637650439091261592366497362009431926071922395044751390690940848771922372871867977",
"a": "0",
"b": "6599838570152383145409522640509482881389779182144702995127769029072877252686620489328064240360413034",
"x": "6769693864117929785011628027330582527734820083987389437109516474822823870585820845614715440057148248",
"y": "20548198552354712292174408245464716572897472036964067180825692303813501172574946295516793973383437694",
"q": "165986212538315835175365152368005816416246238027562123993727987404897545840455875588896583333297"
},
{
"N": "165986212538315835175365152368005816416246238027562123993727987404897545840455875588896583333297",
"a": "0",
"b": "163028957485940739036738196540455620589271697461115537802894793450324649145462832648553240139545",
"x": "110810625152238797658602918683529867241770380555197041001986809942192468508824638908789826195342",
"y": "106195299581075857818640270356726855356156614955829084728103201352722094755997382602214787745323",
"q": "4905131531782494524350671459476918136402478019044477986449005357082314005173084645475121"
},
{
"N": "4905131531782494524350671459476918136402478019044477986449005357082314005173084645475121",
"a": "0",
"b": "3133373630849748367140248021251670785726082652860062401796428898899971332000347996830197",
"x": "2216795940412527533808846444752312073983877593134905852087201671605473758147962436081214",
"y": "2020743350549286117003095124133183339937221372171357030031462829491320399939938623666261",
"q": "735785365206384814329905229407662633291329158403117879645223134523931178947563939"
},
{
"N": "735785365206384814329905229407662633291329158403117879645223134523931178947563939",
"a": "343613448708896012609946847188586262541137564687075755639815169270939253447140727",
"b": "573829418648962593890355007940308001685457861783113207066075131160497163065591060",
"x": "483627629223230664026993082300384793281151439220183787514040237817642756886204072",
"y": "472226649084267391613998572440470715470652486630582761848331821685316938465363028",
"q": "633201634761881858240137098374247538133426565679140284039862207804515636507"
},
{
"N": "633201634761881858240137098374247538133426565679140284039862207804515636507",
"a": "214418288212241971623541739640153092539006231179634630130047239317475576294",
"b": "48652630543809792428425601708175523625176661818777916521271685367094737490",
"x": "606424501454034771022311448587684671990269027082703240147072988888069765083",
"y": "510196297863689434447252521012572558997075904774102694269572421673732060514",
"q": "1030381160442797346797064686586600927621474476787405885118568668193"
},
{
"N": "1030381160442797346797064686586600927621474476787405885118568668193",
"a": "966679790959473193761961252080978984913148467862834526460162639449",
"b": "0",
"x": "914851903456167388215098842852096702649907199091427890809209821428",
"y": "451256459168770641093979972960800452202558089716993773329582318729",
"q": "3397413514866584939518948202300821482991357842186744978559697"
},
{
"N": "3397413514866584939518948202300821482991357842186744978559697",
"a": "1972641570696898056796936144241462869207811755098521266707121",
"b": "0",
"x": "2024766481768675936488613316736458934482914646261257776437124",
"y": "2586340475282779157035617727757308552139962988510715566054758",
"q": "2442789842307039738150660520297371542195512697117"
},
{
"N": "2442789842307039738150660520297371542195512697117",
"a": "1119765662715580487726074983351372593355284045673",
"b": "665172912220775082346360756348413836807082894140",
"x": "491105235906613063744800432359506550705598646111",
"y": "1936659227589923232861959201851370844515774045713",
"q": "57885124304013712315745164883180764741"
},
{
"N": "57885124304013712315745164883180764741",
"a": "0",
"b": "37360339021059325666514622283571918720",
"x": "47474887367326977415092164483786304515",
"y": "45723964680633218145393682499780480587",
"q": "353257536176711461228907587087"
},
{
"N": "353257536176711461228907587087",
"a": "0",
"b": "339227375060729336314447497303",
"x": "180916229151509033732656842679",
"y": "86208656115340059360507655253",
"q": "1529285054928832276063"
},
{
"N": "1529285054928832276063",
"a": "0",
"b": "535122868790490117825",
"x": "437729555487793373171",
"y": "199966317160112930446",
"q": "16724584897849"
},
{
"N": "16724584897849",
"a": "0",
"b": "10849827410072",
"x": "9144146096185",
"y": "2363954733990",
"q": "2389226553121"
},
{
"N": "2389226553121",
"a": "0",
"b": "1834588669511",
"x": "44393271723",
"y": "548314391040",
"q": "18596803"
}
]