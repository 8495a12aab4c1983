import json
P=[]
def p(id,title,statement,quantifier,why,anchors):
    P.append(dict(id=id,title=title,statement=statement,quantifier=quantifier,why_tests_cant=why,anchors=anchors))

S="src/tensor/tensor_shape.cpp"; T="src/tensor/tensor.cpp"; O="src/tensor/ops/"
p("C01","Chunk table of a shape","Constructing a TensorShape from dimensions d0..d(k-1) that it accepts gives an object whose size() is k, whose shape(i) is d_i, and whose chunk(i) is the product d_i*...*d(k-1) for every i, with the single exception that chunk(0) is 1 when that product is 0.","every non-empty list of int dimensions, of any length, whose suffix products fit in int","The list of dimensions is unbounded in length and value; a test fixes a handful of shapes.",[S+":TensorShape::TensorShape(const vector<int>&)","src/tensor/tensor_shape.h:shape,chunk,size"])
p("C02","Invalid and overflowing shapes are never silently accepted","TensorShape construction aborts (assert) exactly when the list is empty, the first dimension is negative or a later one is not positive; otherwise, if a suffix product does not fit in int the computation is undefined behaviour (signed overflow) and in no execution does a constructed shape report a chunk different from the true product.","every list of int dimensions","The rejecting and overflowing inputs form an infinite set, and overflow UB has no testable outcome.",[S+":TensorShape::TensorShape(const vector<int>&)"])
p("C03","Copying and assigning shapes preserves them","Copy construction and assignment of a TensorShape obtained from the vector constructor succeed and give equal size(), shape(i) and chunk(i) for every i; a default-constructed (rank 0) shape cannot be copied or assigned from: it aborts.","every shape value, every previous value of the assignment target","Needs all shapes.",[S+":TensorShape(const TensorShape&)",S+":operator="])
p("C04","Zeros, Ones and Gaussian factories","Tensor::Zeros(shape) and the shape constructor give a tensor of that shape whose chunk(0) elements are all 0, Ones all 1, Gaussian the successive draws of the generator in index order; each allocates exactly one new buffer and disturbs no other tensor.","every accepted shape, every stream of random draws, every prior memory state","All sizes and all prior heaps.",[T+":Zeros",T+":Ones",T+":Gaussian",T+":Tensor(const TensorShape&)"])
p("C05","Eyes is the identity matrix","Tensor::Eyes(n) has shape {n,n} and element (i,j) equal to 1 if i=j and 0 otherwise for every n>0 with n*n representable; for n<=0 it aborts.","every int n and every index pair","All n.",[T+":Eyes"])
p("C06","Copy construction is a deep copy","Copy constructing a tensor that has data gives a tensor with the same shape and elements in its own buffer: afterwards no write through either tensor changes an element of the other. Copy constructing a default-constructed (data-less) tensor is undefined behaviour (null dereference) in the existing code.","every tensor value, every memory state, every later write","Independence is about every later write in every state.",[T+":Tensor(const Tensor&)"])
p("C07","Copy assignment makes the target equal to the source","After a = b (copy assignment), a has the shape and elements of b, b is unchanged, no memory is leaked and nothing outside the two buffers is accessed.","every pair of tensors (equal, smaller, larger or missing target buffer), including a = a","The existing test only assigns equal shapes; every size relation must be covered.",[T+":operator=(const Tensor&)"])
p("C08","Move construction preserves value","Constructing a tensor from an rvalue tensor with data gives a tensor equal to it in its own buffer, and the source stays a valid equal tensor (the code in fact copies).","every tensor with data, every memory state","All values and states.",[T+":Tensor(Tensor&&)"])
p("C09","Move assignment transfers the value and leaks nothing","After a = std::move(b) with a and b distinct, a holds exactly b's former shape and buffer, b has no data, and every buffer that was owned before is either still owned or released.","every pair of distinct tensors and every memory state","Leaks are not visible to functional tests.",[T+":operator=(Tensor&&)"])
p("C10","Destruction releases exactly the owned buffer","Destroying a tensor releases its buffer exactly once by the deallocation form that matches its allocation, whatever constructor produced the tensor; destroying a data-less tensor does nothing.","every tensor produced by every constructor","new/delete[] mismatch is undefined behaviour and usually passes silently in tests.",[T+":~Tensor",T+":Tensor(const DType)"])
p("C11","Reshape keeps data and total size","Reshape to an accepted shape with the same chunk(0) changes only the reported shape: every element by flat index, the buffer identity and chunk(0) are unchanged; it aborts exactly when the totals differ or the shape is invalid.","every tensor and every target shape","All pairs of shapes.",[T+":Reshape"])
p("C12","Memory safety and value semantics of whole programs","In every program built from the tensor API whose calls meet the listed preconditions, no step has undefined behaviour, each live buffer is owned by exactly one tensor (so nothing leaks and nothing is freed twice), and every tensor always has the shape and elements predicted by a pure map from variables to values.","every finite sequence of API calls on any number of tensors","Histories are unbounded.",[T,O])
p("C13","Elementwise binary operations on equal shapes","t1+t2, t1-t2, t1*t2, t1/t2, t1^t2 (and add, sub, mul, div, power) of two tensors of the same shape give a new tensor of that shape whose i-th element is the scalar operation applied to the i-th elements of the operands.","every shape, all element values (any element type, including IEEE floats), every OpenMP schedule","All shapes, values and schedules.",[O+"add.cpp",O+"sub.cpp",O+"mul.cpp",O+"div.cpp",O+"power.cpp"])
p("C14","Broadcasting of a lower-rank right operand","If the shape of t2 is a suffix of the shape of t1, then for +,-,*,/ the result has the shape of t1 and at every multi-index holds the operation applied to t1 at that index and t2 at the trailing part of that index.","every pair of shapes with the suffix relation and every multi-index","The existing test checks only a prefix of the output; the claim is about every index for every rank difference.",[O+"add.cpp",O+"sub.cpp",O+"mul.cpp",O+"div.cpp"])
p("C15","Incompatible shapes are rejected","Every binary tensor operation called with incompatible shapes aborts before touching element data: for +,-,*,/ when t2's shape is not a suffix of t1's; for ^, == and equal when the shapes differ; for matrix product when ranks are not 2, inner dimensions differ or a dimension is zero.","every pair of shapes","All incompatible pairs.",[O+"add.cpp",O+"power.cpp",O+"equal.cpp",O+"matmul.cpp"])
p("C16","Scalar and unary elementwise operations","t op val, -t, exp(t), log(t), sqrt(t) give a tensor of t's shape whose i-th element is the scalar function of the i-th element of t.","every shape, all values, every schedule","All shapes and schedules.",[O+"add.cpp",O+"negate.cpp",O+"exp.cpp",O+"log.cpp",O+"sqrt.cpp",O+"power.cpp"])
p("C17","Equality indicators","t1==t2, t==val give a tensor of 0/1 values that is 1 exactly where the elements compare equal; equal(.,.,eps) is 1 exactly where |difference| < eps, and aborts when eps<0.","every pair of same-shaped tensors, every scalar, every eps, every schedule","All values and shapes.",[O+"equal.cpp"])
p("C18","reduce_sum","reduce_sum(t) is the left-to-right sum of all elements; reduce_sum(t,0) of an r x c tensor has shape {c} with the column sums and reduce_sum(t,axis) for any other axis has shape {r} with the row sums, each accumulated in index order; rank other than 2 aborts. Over exact arithmetic the axis sums add up to the total.","every tensor, axis and schedule","All shapes.",[O+"reduce_sum.cpp"])
p("C19","reduce_mean","reduce_mean is the corresponding sum divided by the number of summed elements (chunk(0), rows, or columns).","every tensor, axis and schedule","All shapes.",[O+"reduce_mean.cpp"])
p("C20","argmax and argmin along an axis","argmax(t,0) / argmax(t,axis) of an r x c tensor with r>0 give, per column / row, the greatest VALUE of that column / row (not its position, despite the name), argmin the least value; no element outside the tensor is read.","every rank-2 tensor, axis and schedule","All shapes including those with 0 rows.",[O+"argmax.cpp",O+"argmin.cpp"])
p("C21","Matrix product","t1 % t2 of an m x k and a k x n tensor (m,k,n>0, m*n in int range) is a fresh m x n tensor whose (i,j) element is the sum over l, in order, of t1(i,l)*t2(l,j); hence over exact arithmetic Eyes is neutral and the product is associative.","all sizes, values, schedules","All sizes and algebraic laws.",[O+"matmul.cpp"])
p("C22","matmul into a caller-supplied output","After matmul(t1,t2,out) with out distinct from t1 and t2, out has shape {m,n} and holds the product, the returned tensor equals it, and no buffer is leaked.","every previous state of out: data-less, too small, same size, larger, other shape","The existing test reuses only an output of identical shape.",[O+"matmul.cpp:matmul"])
p("C23","Results do not depend on the OpenMP schedule","For every parallel loop of the tensor library, any interleaving of the memory accesses of its iterations over any assignment to threads yields the same final memory as sequential execution, and no iteration writes an element that another iteration reads or writes.","every interleaving, every shape, every input","Schedules cannot be enumerated by tests; races show up rarely.",["src/tensor/openmp_support.h:PARALLEL_FOR",O])
p("C24","Operations never modify their operands","Every tensor operation other than assignment, Reshape and element writes leaves all previously existing buffers untouched and returns a tensor in one new buffer.","every operation, every memory state","All heaps.",[O])
p("C25","Activation derivatives","For each predefined activation, actd(z) is the derivative of act at z for every z where act is differentiable (all z for the smooth ones; z away from the kinks for hardtanh, absolute, relu, relucos, relusin).","every real z","Finite differences at one point do not establish it for all z.",["src/act.cpp"])
p("C26","Activation ranges and monotonicity","sigmoid and comploglog map into (0,1), tanh and bipolarsigmoid into (-1,1), arctan into (-pi/2,pi/2), hardtanh into [-1,1], relu/absolute/smoothrelu are non-negative; all of these except absolute are non-decreasing.","every real z","All reals.",["src/act.cpp"])
p("C27","Matrix helper functions","addcol prepends a column of ones; addrow a row of ones; addrows/addcols insert a constant row/column at the index, leaving the others in order; funcop maps every element; rowsum, sumall, repeat compute row sums, total, tiling; out-of-range index raises an exception.","every matrix, index and value","All sizes.",["src/matop.cpp"])
p("C28","Dense forward pass, row by row","Layer::forwardprop of an n x p input with a (p+1) x q weight matrix gives the n x q matrix act(b_j + sum_l x(i,l) w(l,j)) and whatever the batch, each output row of a whole dense network depends only on the corresponding input row and equals the result of feeding that row alone.","every network depth, width, batch, weights","All depths and batches.",["src/layer/layer.cpp:forwardprop","src/neuralnet.cpp:forwardprop","src/layer/inputlayer.cpp"])
p("C29","Backpropagation computes the gradient","For a network of dense layers with an output layer whose cost derivative matches its cost, after forwardprop(x); backprop(y) the gradient reported for every weight of every layer is the partial derivative of computecost(forwardprop(x),y) with respect to that weight, plus lambda times the weight.","every depth, width, batch, weights, labels with activations differentiable at the visited pre-activations","A numeric gradient check samples one point; the repo's checker even has an inverted comparison.",["src/layer/layer.cpp:backprop","src/layer/outputlayer.cpp:backprop","src/neuralnet.cpp:backprop"])
p("C30","Output-layer deltas match their costs","For QuadraticOutput (identity), CrossEntropyOutput (sigmoid), SoftmaxOutput (identity, label rows summing to 1) and KullbackLeiblerOutput, the delta used by backprop is the derivative of the total cost with respect to the pre-activation z.","every batch, labels, pre-activations in the cost's domain","All real inputs.",["src/output/quadraticoutput.cpp","src/output/crossentropyoutput.cpp","src/output/softmaxoutput.cpp","src/output/kullbackleibleroutput.cpp"])
p("C31","Costs are non-negative and vanish only at the target","The quadratic cost is >=0 and 0 iff prediction=label; cross-entropy is >=0 for labels in [0,1] and predictions in (0,1); softmax cross-entropy is >=0 for non-negative labels; the KL cost is >=0 for label and prediction rows that are probability distributions.","all matrices in the domain","All reals.",["src/output/*.cpp:costfunc"])
p("C32","predict returns the first maximal column","For every row of the output, predict's first column is the smallest index of a maximal output and its second column that maximum.","every network, batch and output width >= 1","Ties and all widths.",["src/layer/outputlayer.cpp:argmax","src/neuralnet.cpp:predict"])
p("C33","update is a gradient step that lowers the cost","update() replaces every weight w by w - lrate*grad and changes nothing else observable; with lambda=0 and a non-zero gradient there is a positive bound such that for every smaller common learning rate one forwardprop/backprop/update step strictly lowers the cost.","every dense network, data, small learning rate","Existence of the bound for all networks is not testable.",["src/layer/layer.cpp:update","src/neuralnet.cpp:update","src/trainer/trainer.cpp:feeddata"])
p("C34","Random initialisation has the requested scale","After randominit(s) with s>=0 (non-degenerate draws) the root mean square of (sum of all weights - weight) over the weights equals s, and every weight is the draw scaled by one common factor; two layers of equal shape and s get identical weights.","every shape, every s, every sequence of draws","All shapes and draws.",["src/layer/layer.cpp:randominit"])
p("C35","save then load restores the weights","Loading into a network of the same architecture a file written by save restores every weight up to the text format's rounding, in every layer, whatever the target's previous weights; saving again yields the identical file when the rounding is idempotent. A number in the file has an exponent part exactly if its magnitude, rounded to six digits, is below 0.0001 or at least 1000000.","every architecture and weights","All architectures.",["src/neuralnet.cpp:save","src/neuralnet.cpp:load"])
p("C36","load after a crash during save","If save was interrupted at any byte, load of the partial file still terminates, keeps all shapes, restores every weight whose text was completely written, and sets every weight after the cut to 0 except possibly the one that was cut.","every crash point, every architecture and weights","Every byte position.",["src/neuralnet.cpp:save","src/neuralnet.cpp:load"])
p("C37","A copied network is independent","After copying a NeuralNet, training or changing weights of one copy does not change what the other computes.","every network and every later operation","Aliasing through shared pointers shows up only after particular histories.",["src/neuralnet.cpp:NeuralNet(const NeuralNet&)","src/neuralnet.cpp:operator="])
p("C38","setlrate reaches every layer","After setlrate(r) every layer (input, all hidden, output) reports learning rate r and nothing else changes.","every network","All depths.",["src/neuralnet.cpp:setlrate"])
p("C39","Learning-rate decay","With decay parameters (r0,k,step), over any sequence of feeddata calls on a Trainer/SGDTrainer/MomentumTrainer constructed with them the learning rate is set to r0*exp(-k*step) exactly at call number step and never otherwise; without decay it never changes. A BatchTrainer counts batches and sets the rate at the end of a call after which exactly step batches were trained.","every number of calls below 2^64","Unbounded histories.",["src/trainer/trainer.cpp:feeddata","src/trainer/sgdtrainer.cpp:feeddata","src/trainer/momentumtrainer.cpp:feeddata","src/trainer/batchtrainer.cpp:feeddata"])
p("C40","SGDTrainer processes samples one by one in order","SGDTrainer::feeddata(x,y) has exactly the effect of one forward/backward/update step for each row in order, and the reported cost is the sum over rows of the per-row costs of the trained network.","every network and data size","All sizes.",["src/trainer/sgdtrainer.cpp"])
p("C41","BatchTrainer covers the data in fixed-size batches","BatchTrainer::feeddata with 2<=batchsize<=n+1 performs ceil(n/batchsize) steps, the b-th on rows b*batchsize .. b*batchsize+batchsize-1 taken cyclically, so every sample is used at least once and every batch has exactly batchsize rows.","every n and batchsize","All size combinations.",["src/trainer/batchtrainer.cpp:feeddata"])
p("C42","Momentum averaging","With momentum m the output-layer direction after t calls is sum_{i=1..t} m^(t-i)(1-m) g_i of the gradients seen so far, for m != 0 the same holds for every hidden layer, and the weights move by -lrate times that direction.","every history length and gradient sequence","Unbounded histories.",["src/trainer/momentumtrainer.cpp:feeddata"])
p("C43","MomentumTrainer without momentum averages gradients","With momentum 0, hidden-layer directions are the running average of the gradients seen so far (as the formula ((t-1)/t)*old + (1/t)*new intends).","every history","Unbounded histories; integer division hides in the formula.",["src/trainer/momentumtrainer.cpp:feeddata"])
p("C44","Copying a trainer preserves its configuration","A copied trainer has the same network, decay parameters, decay flag and iteration count as the original, so both behave identically from then on.","every trainer state","All states.",["src/trainer/sgdtrainer.cpp","src/trainer/batchtrainer.cpp","src/trainer/momentumtrainer.cpp","src/trainer/trainer.cpp"])
p("C45","NormLayer scaling","NormLayer::forwardprop divides the input by max-min of the first input seen since the last backprop, so that input's entries span exactly 1; backprop divides by the same factor and re-arms the layer.","every history of forward/backward calls","The factor depends on the call history and on an uninitialised member.",["src/layer/normlayer.cpp"])
p("C46","SoftmaxLayer","SoftmaxLayer::forwardprop gives rows that are positive, sum to 1, preserve the order of the inputs and do not change when a constant is added to a row; backprop returns the Jacobian-transpose product of the incoming delta.","all real matrices","All reals.",["src/layer/softmaxlayer.cpp"])
p("C47","Convolution forward pass","Conv2DLayer::forwardprop gives at output position (i,j) of filter k the activation of the sum over input channels and kernel offsets of the zero-padded image at (i*stride+u, j*stride+v) times the kernel.","every geometry, weights, image","All geometries.",["src/layer/conv2dlayer.cpp:forwardprop","src/layer/conv2dlayer.cpp:convolve"])
p("C48","Convolution and pooling treat batch rows independently","Each row of a batch passed to Conv2DLayer, MaxPoolLayer or MeanPoolLayer gives the same output as that row alone.","every batch size and row","All batch sizes.",["src/layer/conv2dlayer.cpp:toimage","src/layer/maxpoollayer.cpp:forwardprop","src/layer/meanpoollayer.cpp:forwardprop"])
p("C49","Convolution backward pass","Conv2DLayer::backprop's weight gradient depends on the incoming delta as the derivative of the forward pass requires.","every geometry, delta","All inputs.",["src/layer/conv2dlayer.cpp:backprop"])
p("C50","Copying a convolution layer preserves its configuration and weights","A copied Conv2DLayer has the same stride, padding, sizes and weights and computes the same forward pass.","every layer","All configurations.",["src/layer/conv2dlayer.cpp:operator="])
p("C51","Max pooling","MaxPoolLayer::forwardprop outputs, per channel, the maximum of each spatial x spatial window at stride steps.","every image, geometry","All images including negative ones.",["src/layer/maxpoollayer.cpp"])
p("C52","Mean pooling","MeanPoolLayer::forwardprop outputs, per channel, the mean of each window.","every image, geometry","All images.",["src/layer/meanpoollayer.cpp"])
p("C53","InputLayer passes data through and copies faithfully","InputLayer::forwardprop returns its input unchanged for every input; copying an InputLayer preserves its reported sizes.","every input, every chain of copies","All sizes, unbounded copies.",["src/layer/inputlayer.cpp"])
p("C54","Training never breaks a well-formed network","If the layer sizes of a dense network chain correctly, then any sequence of forwardprop, backprop, update, setlrate, predict and trainer calls with data of matching width (labels for the samples of the last forward pass, batch sizes from 2 to one more than the number of samples) throws no exception and keeps every weight matrix's dimensions.","every well-formed network and every call history","Unbounded histories and sizes.",["src/neuralnet.cpp","src/layer/layer.cpp","src/trainer/*.cpp"])
p("C55","Prediction does not change the model","forwardprop and predict never change any weight or gradient of a dense network, and repeating a call with the same input returns the same result.","every network, input and interleaving of calls","All histories.",["src/neuralnet.cpp:predict","src/neuralnet.cpp:forwardprop"])
p("C56","Batch gradient is the average of the sample gradients","For dense networks with the library's quadratic or cross-entropy output and lambda=0, the gradient of every weight after a batch of n rows is the average of the gradients obtained from the n rows one at a time.","every network, batch","All batches.",["src/layer/layer.cpp:backprop","src/layer/outputlayer.cpp:backprop","src/output/*.cpp"])
p("C57","Reported training cost","feeddata(x,y,true) trains exactly as feeddata(x,y) and returns the cost of the network's predictions on the training data (those of the forward pass the step used); with false it returns 0. Asking for the cost never makes a call with fitting sizes fail (BatchTrainer: only if the batch size is the number of samples).","every trainer, network, data","All data sizes and networks.",["src/trainer/trainer.cpp:feeddata","src/trainer/momentumtrainer.cpp:feeddata","src/trainer/batchtrainer.cpp:feeddata"])
p("C58","The OpenMP loops of convolution and pooling do not change the result","Built with OpenMP, the forward and backward pass of a convolution layer and the forward pass of the pooling layers give, whatever the order in which the threads' memory accesses happen, the result of the sequential loop, and have no data race.","every layer, batch and schedule of the element accesses","All interleavings of an unbounded number of accesses.",["src/layer/conv2dlayer.cpp:forwardprop","src/layer/conv2dlayer.cpp:backprop","src/layer/maxpoollayer.cpp:forwardprop","src/layer/meanpoollayer.cpp:forwardprop"])
p("C59","The order of the samples in a batch does not matter","For a dense network whose output treats rows separately (all four library outputs), reordering the rows of every training batch (samples and labels together) leaves the trained weights, and the reported cost, unchanged; predictions come out in the reordered order.","every network, sequence of batches of any sizes and permutation of each","All batch sizes, permutations and lengths of training.",["src/neuralnet.cpp: NeuralNet::forwardprop/backprop/update/computecost","src/layer/layer.cpp","src/layer/outputlayer.cpp","src/output"])
p("C60","Reported cost is the average over the samples","computecost(pred,y) on a batch of n rows is the average of computecost on the rows; and after forwardprop(x), backprop(y) the output layer's getcostval() is its cost of the prediction against y, also through NeuralNet::getoutput().","every prediction and label matrix of one shape, every output layer and network","All sizes and values.",["src/neuralnet.cpp: NeuralNet::computecost","src/neuralnet.h: getoutput","src/layer/outputlayer.cpp: OutputLayer::getcostval, copy constructor","src/output/*.cpp: costfunc"])
p("C61","GradientChecker's verdict","GradientChecker(net).check() terminates, leaves the weights as they were, and returns true exactly if the gradient computed by backprop agrees with the finite differences of the cost within 1e-6 in every hidden layer.","every well-formed dense network, sample and label","All networks and weights.",["test/gradient_checker.cpp: GradientChecker::GradientChecker, check, issame","src/neuralnet.cpp: sethiddenw"])
p("C62","A copied or assigned network behaves like the original","For every sequence of member function calls (except getinput), made on a copy of a network (copy constructor, or assignment to any existing network) instead of on the network itself, the calls return the same values, fail in the same way and leave the same layers and files.","every network of layers of any classes, every target of the assignment, every sequence of calls","Unbounded call histories.",["src/neuralnet.cpp: NeuralNet(const NeuralNet&), operator=","src/layer/outputlayer.cpp: copy constructor, operator=","src/neuralnet.h"])
p("C63","Functions that change weights change exactly the weights they name","update() moves every dense, convolution and output layer by minus learning rate times gradient and leaves every other layer unchanged; sethiddenw(i,w) / setoutputw(w) replace the weights of that layer only; randomize(s) redraws exactly one layer, and each layer including the output can be the one.","every network of layers of any classes, every index and value of rand()","All depths, classes and weights.",["src/neuralnet.cpp: update, randomize","src/neuralnet.h: sethiddenw, setoutputw","src/layer/*.cpp: update, randominit"])
p("C64","Training depends on the weights alone and can be resumed","Two dense networks with the same settings and weights, whatever else their members hold, end with the same weights after the same batches; hence saving during training, loading into another network of the same architecture and settings and going on gives exactly the weights of the uninterrupted training, if the text format loses nothing of the saved weights (default stream precision keeps six digits).","every network, every two sequences of batches, every content of caches and uninitialised memory","Unbounded histories.",["src/neuralnet.cpp: save, load, forwardprop, backprop, update"])
p("C65","A perfect fit is a fixed point of training","Training a dense network on batches whose labels it already predicts (for the softmax output: whose labels are the softmax of the prediction) multiplies every weight by 1 - lrate*lambda per step, so without regularisation it changes nothing, for any number of steps; for a single sample a step changes nothing only if the fit is perfect.","every network, every batch size, every sequence of batches","All reals, unbounded histories.",["src/output/*.cpp: costfuncdelta", "src/layer/layer.cpp: backprop, update", "src/neuralnet.cpp"])
p("C66","Networks that share no layer do not influence each other","In a program that uses several networks, a network with no layer object and no file in common with the others behaves, whatever the order in which calls to the networks are mixed, as in the program with only its own calls: same returned values, same failures, same final layers, members and files.","every set of networks of layers of any classes, every interleaving of calls of every length","All interleavings and histories.",["src/neuralnet.cpp", "src/neuralnet.h", "src/layer/*.cpp"])
p("C67","Wrong sizes are always reported by an exception","For dense networks of any sizes, forwardprop(x) succeeds exactly if x has at least one row and the layers chain behind its width, and throws otherwise; on a well-formed network with a library output, backprop(y) after it succeeds exactly if y has the size of the prediction, and throws otherwise; so does a training step; computecost throws exactly if the sizes differ. Reading or writing an element, or taking a part, of a matrix outside its bounds throws. Never is the behaviour undefined.","every network of dense layers, every input, label and prediction of any sizes (0 included)","All size combinations.",["src/neuralnet.cpp: forwardprop, predict, backprop, computecost", "src/layer/layer.cpp", "src/layer/outputlayer.cpp", "src/output/*.cpp"])
p("C68","Training a linear network converges to the least squares fit","A network without hidden layers, with linear output, quadratic cost and no regularisation, trained again and again on one batch (forwardprop, backprop, update): no call throws; if 0 <= lrate and lrate times the mean squared length of the samples (counting the leading 1) is at most 2 the cost never grows from one round to the next; if lrate > 0 and the product is at most 1, after t rounds the cost exceeds that of any weights V by at most |W0-V|^2/(2 lrate t), so it converges to the smallest mean squared error any weights reach, and to 0 if the batch can be fitted. On one sample the cost is multiplied by (1-lrate(1+|x|^2))^2 every round, so larger rates diverge.","every linear network, initial weights, batch, label matrix, learning rate and number of rounds, over the reals","convergence is a statement about an unbounded number of rounds and about every competitor V; a test trains one network for some rounds",["src/layer/outputlayer.cpp:backprop", "src/output/quadraticoutput.cpp", "src/neuralnet.cpp:forwardprop,backprop,update,computecost", "src/layer/layer.cpp:update"])
p("C69","Uninitialised memory never reaches a result","A program that builds a network of dense layers (any sizes, rates, activations), makes trainers of any kind and then calls, in any order and number, feed/feedcost of those trainers and the methods of the network returns the same values, throws the same errors at the same points and leaves the same files whatever was in the memory the library allocates without initialising (weight gradients, caches, the scratch weights of the input layer), provided no update(), gethidden() or getoutput() is called before the first backprop or fed batch. The condition is needed: update() as the first call adds uninitialised memory to the weights and changes every later prediction.","every network recipe, program, file system, random draw and pair of contents of uninitialised memory","a test runs with one content of uninitialised memory, usually zeros; the claim compares all contents over programs of any length",["src/layer/layer.cpp:Layer,backprop,update", "src/layer/inputlayer.cpp:InputLayer", "src/layer/outputlayer.cpp:OutputLayer", "src/neuralnet.cpp", "src/trainer/trainer.cpp", "src/trainer/momentumtrainer.cpp", "src/trainer/sgdtrainer.cpp", "src/trainer/batchtrainer.cpp"])
p("C70","Well-sized programs run to their end","A program that builds a network of dense layers whose sizes chain from p inputs to q outputs, with a cost function that accepts predictions and labels of equal sizes (all cost functions of the library do), then makes trainers of any kind and uses them and the network with data of fitting sizes, in any order and number, never throws and never has undefined behaviour: each statement returns a value of the kind and size documented for it, predicted classes are below q, and files change only through save.","every chaining network recipe, random draw, content of uninitialised memory, file system and program of fitting statements","the programs are of any length and mix all statements; a test runs a few",["src/neuralnet.cpp", "src/layer/layer.cpp", "src/layer/inputlayer.cpp", "src/layer/outputlayer.cpp", "src/trainer/trainer.cpp", "src/trainer/momentumtrainer.cpp", "src/trainer/sgdtrainer.cpp", "src/trainer/batchtrainer.cpp", "src/output/quadraticoutput.cpp", "src/output/crossentropyoutput.cpp", "src/output/softmaxoutput.cpp", "src/output/kullbackleibleroutput.cpp"])
p("C71","The demo programs are total on well-labelled data","example/xor_problem.cpp and example/spiral.cpp: for any numbers in the data files, any random draws and any uninitialised memory, if the labels are in range the program loads one-hot labels, trains for its fixed number of rounds, predicts a class below the number of classes for every pixel and draws only inside the canvas, each pixel showing the class of its own point; a label out of range ends the program with an exception before training; a missing data file is not noticed: the program trains on uninitialised inputs and all-zero labels and still runs to its end.","all data file contents, random draws, uninitialised memory and canvas sizes","no finite set of data files and random seeds covers the claim; training is 120000 rounds long",["example/xor_problem.cpp", "example/spiral.cpp"])
p("C72","Activation functions in double arithmetic","With IEEE doubles, every activation function of a finite pre-activation is not NaN and lies in its documented range after rounding, and so does every derivative. relu and hardtanh must not hide a NaN.","all finite doubles z (and NaN), all thirteen activation functions and derivatives, any rounding and C library within the stated bounds","2^64 arguments, and the answer depends on where exp overflows",["src/act.cpp"])
p("C73","A NaN weight is never repaired and silently decides predictions","Once a weight is NaN it stays NaN under every further sequence of forwardprop, backprop, update, setlrate, predict and training calls; if it is the bias of output class 0 predict answers class 0 with value NaN for every sample, if it is the bias of another class predict never answers that class; no call reports an error because of it; one training step spreads it to every hidden unit.","all networks, call histories, data and labels; output activations that keep NaN","all histories after the first NaN",["src/neuralnet.cpp", "src/layer/layer.cpp", "src/layer/outputlayer.cpp:argmax"])
p("C74","Softmax output: overflow in training","Training a network with a SoftmaxOutput in double arithmetic: outputs between -600 and 600 give finite deltas; one output of 710 or more (or all outputs of a row at -746 or less) makes biases NaN in that step and all biases NaN in the next, after which predict answers class 0 for every sample forever.","all networks with a softmax output, data, labels and later call histories","depends on overflow of exp inside training histories",["src/output/softmaxoutput.cpp", "src/neuralnet.cpp"])
p("C75","Costs in double arithmetic","computecost of finite predictions and labels in [0,1] is not NaN. Exactly when it fails: cross entropy with a saturated right answer (sigmoid is exactly 1 from 38 on), Kullback-Leibler with any zero label, softmax with an output of 710 or more or a rejected class at -746 or less; the quadratic cost is never NaN or negative.","all predictions and labels (matrices of any size), four cost functions","cost is evaluated on every double; saturation only shows after long training",["src/neuralnet.cpp:computecost", "src/output/crossentropyoutput.cpp", "src/output/kullbackleibleroutput.cpp", "src/output/softmaxoutput.cpp", "src/output/quadraticoutput.cpp"])
p("C76","Moderate networks compute without overflow","If weights, learning rates, decay factors and sizes are bounded by M (8 <= M < 2^50), hidden activations are bounded ones, and data are bounded by M, then with IEEE doubles every output is a finite number, predict answers the first class with the largest output, and after a training step (quadratic or cross entropy output) every weight is a number bounded by an explicit power of M.","all M, depths, widths, batch sizes, weights and data within the bounds; any order of summation","all sizes, values and orders of summation of the BLAS",["src/neuralnet.cpp", "src/layer/layer.cpp", "src/act.cpp", "src/output/quadraticoutput.cpp", "src/output/crossentropyoutput.cpp"])
p("C77","Rounding errors of forward passes and predictions","A forward pass in IEEE binary64 fails exactly if the exact one does; otherwise each output is a finite number within an explicit error of the output of the exact network. For tanh networks with weights up to M, at most N units a layer, inputs up to B and h hidden layers the error is at most (2 N^2 M B 2^-53 + 2 N 2^-1074 + d)(1 + NM + ... + (NM)^h), d being the error of the C library's tanh. If one class exceeds the others by more than twice the error in exact arithmetic, predict answers that class.","all platforms (any summation order, fused or not, any C library accurate to d), networks of dense layers, data, depths and widths for which the stated bounds do not overflow","all values, sizes, depths and orders of summation; tests compare with the same rounded arithmetic",["src/neuralnet.cpp:forwardprop,predict", "src/layer/layer.cpp:forwardprop", "src/layer/outputlayer.cpp:argmax", "src/act.cpp"])
p("C78","Rounding errors of training","Training in IEEE binary64 on any sequence of batches (forwardprop, backprop, update) fails exactly if exact training does; otherwise every weight of the trained network is a finite number within an explicit, recursively computed error of the exact weight, and later forward passes are within the errors of C77 for those weights.","all platforms, networks of dense layers with identity, tanh, arctan or sigmoid activations (and others with a given estimate), quadratic or cross entropy output, batch sequences of any length for which the bounds do not overflow","all histories of training and orders of summation",["src/neuralnet.cpp:forwardprop,backprop,update", "src/layer/layer.cpp", "src/layer/outputlayer.cpp:backprop", "src/output/quadraticoutput.cpp", "src/output/crossentropyoutput.cpp", "src/act.cpp"])
p("C79","Saving and loading doubles","With weights of type double: saving a network of finite weights and loading the file into a network of the same architecture gives every weight back as a finite number of the same sign (minus zero included) with a relative error of at most 1/100000, changes nothing else, and saving again gives the identical file exactly if no weight is +-202403*2^-1074. If a weight is infinite or NaN, that weight and every weight after it in the file are loaded as +0 and the weights before it come back. Whatever a file contains, loaded weights are finite. From a file of decimal numbers each weight is the double nearest to its number, until a number too large for a double: that weight becomes the largest double and all later weights 0.","all networks of dense layers, all double values including subnormals, infinities, NaN and both zeros, all files","all 2^64 values of every weight, and files of any content; the one unstable value would not be found by tests",["src/neuralnet.cpp:save,load"])
p("C80","Renumbering hidden units changes nothing","If two dense networks differ only in the order of the units of their hidden layers (columns of a layer's weights and the matching rows of the next layer's weights permuted alike), then trained on the same batches they still differ only in that order, and give the same outputs for every input. Consequently two units of a hidden layer that receive equal weights and pass on equal weights still do so after any training.","all dense networks of any depth and widths, all activations, learning rates and regularisations, all permutations of every hidden layer, all sequences of batches, all inputs","a relation between two runs of any length and all permutations",["src/layer/layer.cpp:forwardprop,backprop,update", "src/neuralnet.cpp:forwardprop,backprop,update"])
p("C81","Default-constructed objects","A default-constructed network refuses every input with an exception; update, randomize and load leave it as it is whatever the file holds, and backprop and computecost call through an indeterminate pointer. feeddata of a default-constructed trainer dereferences a null pointer (an SGDTrainer only if the data has a row; a BatchTrainer reads its indeterminate batch size first). After a network or trainer has been assigned to it, a default-constructed object behaves in every program as the object assigned.","all inputs, labels, files and layers in memory; all sequences of calls and of data after the assignment","all inputs and all continuations of a program",["src/neuralnet.cpp:NeuralNet()", "src/layer/outputlayer.cpp:OutputLayer()", "src/trainer/trainer.cpp:Trainer(),feeddata", "src/trainer/sgdtrainer.cpp", "src/trainer/batchtrainer.cpp", "src/trainer/momentumtrainer.cpp"])
p("C82","Exception safety of training and prediction","When forwardprop, backprop, update, predict or a trainer's feeddata throws - because sizes do not fit or because memory is exhausted at any point - the network keeps its layer objects, cost functions, settings and sizes and stays well formed, and no other network is touched. forwardprop, backprop and predict never change a weight. If memory suffices, Trainer and MomentumTrainer leave all weights (and averaged directions) as they were; if not, every weight matrix is as before or as after the complete call, the output layer first and then the hidden layers in order. SGDTrainer and BatchTrainer keep the samples or batches they have completed: they are not all-or-nothing. After any failed step the network can be trained on, and if memory sufficed, exactly as if the failed call had not been made.","all well-formed dense networks, samples, labels of any sizes, trainers, and all points at which a matrix computation may run out of memory","all failure points and all inputs",["src/layer/layer.cpp:forwardprop,backprop,update", "src/layer/outputlayer.cpp:backprop", "src/neuralnet.cpp:forwardprop,backprop,update,predict", "src/trainer/trainer.cpp:feeddata", "src/trainer/sgdtrainer.cpp:feeddata", "src/trainer/batchtrainer.cpp:feeddata", "src/trainer/momentumtrainer.cpp:feeddata"])
p("C83","When the trainers agree","A BatchTrainer whose batch size is the number of samples (at least 2), without decay, is a Trainer: after every sequence of calls the networks and the iteration counter are the same, and it fails in the same call with the same error. A call of a MomentumTrainer moves every weight by a fixed share of the step a Trainer takes from the same state on the same data, plus momentum times the learning rate along the direction it remembers; the first call takes exactly the share 1 - momentum, so that without momentum it is the call of a Trainer. Without momentum, call number n takes the whole step of a Trainer in the output layer and 1/n of it in a hidden layer, so from the second call on hidden layers agree only where the Trainer would change nothing.","all sequences of data sets, networks, trainers and momenta","all call sequences and real-valued data",["src/trainer/batchtrainer.cpp:feeddata", "src/trainer/trainer.cpp:feeddata", "src/trainer/momentumtrainer.cpp:feeddata", "src/trainer/momentumtrainer.cpp:initmomentum"])
p("C84","Programs that assign results to existing tensors","A program may also assign temporaries or moved tensors to tensors that already have data (t = a + b), move a tensor to itself, and multiply into a tensor that is too small. It still runs without undefined behaviour under every schedule, reads exactly the numbers the value semantics predicts (a tensor moved to itself or assigned from an empty tensor has no data afterwards), and exactly one buffer is lost for every such assignment to a tensor with data: when all tensors are destroyed, that many buffers are still allocated.","every finite sequence of API calls on any number of tensors, every schedule","Histories are unbounded.",["src/tensor/tensor.cpp:operator=", "src/tensor/ops/matmul.cpp:matmul"])
p("C85","What the tensor unit tests sample holds for all sizes","Every expectation of the templates in test/tensor (argmax, argmin, arithmetic with a scalar, with a tensor and with broadcasting, equality, exp, log, sqrt, matrix product, negation, sums and means, constructors, reshaping, copying, shapes) holds for every size, shape, scalar and all random draws, under every schedule; the test programs have no undefined behaviour except the one that destroys a tensor made from a single value. The broadcasting test is right in every element it reads also where the result is incomplete (two more dimensions), because it does not read the rest.","every size, shape, draw, scalar and schedule","The tests run some sizes with random values; all sizes and values are out of their reach.",["test/tensor/test_tensor.cpp", "test/tensor/test_tensor_shape.cpp", "test/tensor/ops/test_tensor_arg.cpp", "test/tensor/ops/test_tensor_basic_ops.cpp", "test/tensor/ops/test_tensor_equal.cpp", "test/tensor/ops/test_tensor_mathops.cpp", "test/tensor/ops/test_tensor_matmul.cpp", "test/tensor/ops/test_tensor_negate.cpp", "test/tensor/ops/test_tensor_reduce.cpp"])
p("C86","Outputs and predictions of a reloaded network","A network of dense layers is saved and loaded into a network of the same architecture. For every input of bounded size, each output of the loaded network differs from that of the saved one by at most an explicit bound computed from the slopes of the activations, the sums of the absolute weights of the units and the precision of the file (5 parts in a million); a sample whose largest output leads by more than twice the bound is predicted to be of the same class. More generally, changing every weight by at most a fraction and every input by at most a given amount changes the outputs by at most the bound. Without the margin the predicted class can change.","all dense architectures, all real weights, all inputs, all activations with a Lipschitz constant (all 13 of the library)","the bound must hold for every network, every weight and every input; a test reloads one network.",["src/neuralnet.cpp: save, load, forwardprop, predict", "src/layer/layer.cpp: forwardprop", "src/act.cpp"])
p("C87","What the unit tests of activations and layers sample holds for all inputs","The derivative checks of test/act_test.cpp (step 1e-6, tolerance 1e-6) hold, in exact arithmetic, for all 13 activations at every argument further than the step from a kink, and for every step eps the error is at most an explicit multiple of eps; at the kinks of relu, absolute and hardtanh they fail for every step below 1. layer_random_init_weights holds exactly for every layer size, every requested deviation and all non-degenerate draws; layer_dimension_test for every size, parameter and contents.","all arguments, all steps, all layer sizes, parameters, draws and contents","the tests evaluate each activation at one point with one step and one layer of each kind.",["test/act_test.cpp", "test/layer_unit_test.cpp", "src/act.cpp", "src/layer/layer.cpp"])
p("C88","Training without hidden layers converges","Training a network without hidden layers (linear output with the quadratic cost, sigmoid output with cross entropy, softmax output) again and again on one batch, for all initial weights, samples, admissible labels and every lambda >= 0: with a = curvature * mean(1+|x|^2) + lambda (curvature 1, 1/4, 1/2), the cost plus lambda/2 times the squared weights never rises if lrate*a <= 2; if lrate*a < 2 it converges to the infimum over all weights, and if some weights reach the infimum the weights converge to weights that reach it; if lrate*a <= 1 it is after t rounds at most that of any weights V plus |W0-V|^2/(2*lrate*t), and with lambda > 0 the optimum is unique and the weights converge to it geometrically by the factor 1 - lrate*lambda. If lambda = 0 and some weights separate the classes (softmax) or the signs (sigmoid), then from some round on predict returns the right class of every sample, or every output is on the right side of 1/2.","all samples, labels, initial weights, learning rates under the bound, lambda >= 0 and numbers of rounds","convergence is a statement about infinitely many rounds and all data; a test runs a few rounds on one data set.",["src/neuralnet.cpp: forwardprop, backprop, update, computecost, predict", "src/layer/layer.cpp", "src/output/quadraticoutput.cpp", "src/output/crossentropyoutput.cpp", "src/output/softmaxoutput.cpp"])
p("C89","Constructors and setters give the layer that was asked for","For all non-negative sizes, rates, spreads, penalties and activations every constructor of Layer, OutputLayer and the four kinds of outputs succeeds and returns a layer with q nodes, weights and gradient of p+1 rows and q columns, exactly the rate, penalty, activation and cost functions asked for, no results yet, and weights that are the random draws times one factor and have the spread asked for (the constructors without a spread use 1). The LayerParam constructors use the caller's activation, the others the one of the kind (sigmoid for cross entropy, identity otherwise). Sizes p < -1 or q < 0 throw, all others do not. getpnnodes() is p+1, never p. setw replaces the weights; setlambda(r) changes no result and adds (r-lambda)*W to the next gradient; setlrate(r) makes the next update W - r*grad.","all sizes, parameters, activations, draws, inputs and deltas","a test constructs a few layers of fixed sizes.",["src/layer/layer.cpp", "src/layer/layer.h", "src/layer/outputlayer.cpp", "src/layer/inputlayer.cpp", "src/layer/normlayer.cpp", "src/output/*.cpp"])
p("C90","Every trainer without momentum learns linear data that can be fitted","Take a network without hidden layers, with a linear output, the quadratic cost and lambda = 0, and data x, y which some weights fit exactly. If lrate*(1+|x_i|^2) < 2 for every sample x_i, then calling feeddata(x, y) again and again on a Trainer, an SGDTrainer or a BatchTrainer (2 <= batch size <= samples+1) without decay makes the weights converge to weights that fit every sample exactly, and the cost reported by computecost converge to 0, from every initial weight.","all data that can be fitted, all numbers of samples, sizes, initial weights, learning rates under the bound and batch sizes","a limit over infinitely many epochs for all data sets; a test runs some epochs on one data set and checks a tolerance.",["src/trainer/trainer.cpp: feeddata", "src/trainer/sgdtrainer.cpp: feeddata", "src/trainer/batchtrainer.cpp: feeddata", "src/neuralnet.cpp: forwardprop, backprop, update, computecost"])
p("C91","Training with momentum converges","Train a network without hidden layers (linear output with the quadratic cost, sigmoid output with cross entropy, softmax output) with a MomentumTrainer of momentum 0 <= m < 1 on one batch again and again, with a = curvature*mean(1+|x|^2) + lambda as in C88. If lrate*a <= 2 no call raises the penalised cost plus lrate*m/(2(1-m)) times the squared averaged gradient. If lrate*a < 2 the penalised cost converges to the infimum over all weights; if some weights reach it, the weights converge to weights that reach it; with lambda > 0 they converge to the only optimum. With lambda = 0 and separable classes or signs, from some call on predict is right on every sample, or every output is on the right side of 1/2.","all samples, admissible labels, initial weights, momenta in [0,1), learning rates under the bound, lambda >= 0 and numbers of calls","convergence is a statement about infinitely many calls and all data; a test runs a few calls on one data set.",["src/trainer/momentumtrainer.cpp: feeddata, initmomentum", "src/neuralnet.cpp: forwardprop, backprop, update, computecost, predict", "src/layer/layer.cpp: update(grad)"])
p("C92","Tensor expressions obey the laws of matrix algebra","Every well-shaped expression over vectors and matrices built from variables, Zeros, Ones, Eyes, unary -, the operators + - * / on tensors of the same shape, with a number and with a vector repeated over the rows, %, and reduce_sum over either axis is evaluated without failure, changes no existing tensor, and gives exactly the elements matrix algebra prescribes. Two expressions give the same tensor exactly if they mean the same matrix: % is associative, distributes over + and -, has Eyes as its unit, and is not commutative; + is commutative and associative; * distributes over +; sums are linear; x % w + b is affine in x.","all expressions of any size and depth, all shapes, all elements of any ring, all schedules of all parallel loops","infinitely many expressions and shapes and every interleaving of the loops; a test evaluates a few operators on small tensors.",["src/tensor/ops/add.cpp", "src/tensor/ops/sub.cpp", "src/tensor/ops/mul.cpp", "src/tensor/ops/div.cpp", "src/tensor/ops/negate.cpp", "src/tensor/ops/matmul.cpp: operator%", "src/tensor/ops/reduce_sum.cpp", "src/tensor/tensor.cpp: Zeros, Ones, Eyes"])
p("C93","How features, hidden units and classes are numbered does not matter","Reorder the columns of the training inputs (the features) and the columns of the labels (the classes), and start from the network whose weights are renumbered accordingly (also with the hidden units in any order): after any training the network is still the original one renumbered; its outputs are the original outputs with the classes reordered; computecost reports the same cost; predict reports the same confidence and, where one class alone has the largest output, the same class. This holds with each of the four output layers of the library.","all dense networks of any depth and width, all permutations of features, hidden units and classes, all sequences of batches, all inputs and labels","all permutations, networks and training histories; a test permutes one data set.",["src/layer/layer.cpp: forwardprop, backprop, update", "src/neuralnet.cpp: forwardprop, backprop, update, predict, computecost", "src/layer/outputlayer.cpp: argmax", "src/output/quadraticoutput.cpp", "src/output/crossentropyoutput.cpp", "src/output/softmaxoutput.cpp", "src/output/kullbackleibleroutput.cpp"])
p("C94","A rectified unit that is silent on the training data never recovers","If a unit of a rectified first hidden layer has a negative pre-activation on every training input, then no amount of training on those inputs, with any labels, any number of passes and any other layers, ever wakes it: each step multiplies the weights into and out of the unit by 1 - lrate*lambda and changes nothing else about it (with lambda = 0 the weights never change), and the unit stays silent on every input on which it was silent.","all dense networks of any depth and width with a rectified first layer, all data, all label sequences, all training lengths, all learning rates and regularisations with lrate*lambda < 1","an impossibility statement over unbounded training histories: a test can only observe that a unit has not recovered yet.",["src/act.cpp: relu, relu gradient", "src/layer/layer.cpp: forwardprop, backprop, update", "src/neuralnet.cpp: forwardprop, backprop, update"])
p("C95","A layer with learning rate zero is frozen","A dense layer whose learning rate is zero keeps exactly its weights through any program that trains: any number of feeddata calls of any of the four trainer classes, on any data and for any networks (also networks that share layers), with forwardprop, backprop, predict and both kinds of update called in between, whether the calls return, throw because of sizes or run out of memory at any point. Only trainers with learning-rate decay are excluded: when one reaches its step, all layers of its network, frozen ones included, get a rate that is not zero.","all histories of calls, of any length, all networks and ways to share layers, all data and gradients of any sizes, all points at which memory may run out","the property quantifies over all call histories and all failure points; a test runs one history.",["src/layer/layer.cpp: update", "src/neuralnet.cpp: forwardprop, backprop, update, predict", "src/trainer/trainer.cpp: feeddata", "src/trainer/sgdtrainer.cpp: feeddata", "src/trainer/batchtrainer.cpp: feeddata", "src/trainer/momentumtrainer.cpp: feeddata"])
p("C96","Copied and assigned layers behave like the original","A layer that was copy-constructed or assigned from another one of the same class answers every sequence of calls (forwardprop, backprop, update, randominit, setlrate) exactly as the original does from its state at the time of the copy, whatever the memory of the new object or the target of the assignment contained before.","all dense, softmax, norm, pooling and convolution layers in all states, all sequences of calls, all previous contents of the target or its memory","all call sequences and all contents of uninitialised memory are quantified over; a test runs one sequence in one process image.",["src/layer/layer.cpp: Layer(const Layer&), operator=", "src/layer/normlayer.cpp: NormLayer(const NormLayer&), operator=", "src/layer/softmaxlayer.cpp: SoftmaxLayer(const SoftmaxLayer&), operator=", "src/layer/maxpoollayer.cpp: MaxPoolLayer(const MaxPoolLayer&), operator=", "src/layer/meanpoollayer.cpp: MeanPoolLayer(const MeanPoolLayer&), operator=", "src/layer/conv2dlayer.cpp: operator="])
p("C97","A batch counts only through the shares of its samples","Training on a sequence of batches gives the same weights as training on another sequence in which each batch contains every (sample, label) pair in the same proportion: the order and the number of repetitions do not matter, and writing every batch k times over changes nothing. computecost too depends only on the shares of the (prediction, label) pairs.","all dense networks with an output that treats rows separately (the four predefined outputs), all sequences of batches, all pairs of batches with equal shares, all repetition counts","all batches, repetition patterns and training histories are quantified over; a test compares one batch with one copy.",["src/neuralnet.cpp: forwardprop, backprop, update, computecost", "src/layer/outputlayer.cpp: backprop", "src/layer/layer.cpp: backprop, update"])
p("C98","One layer object at several positions of a network","A network may use the same layer object at several positions (the constructor takes shared pointers). Its outputs are those of a network with a separate layer of the same weights at each position; saving and loading preserve its weights; and training with a small enough learning rate lowers the cost of the batch, as for networks with separate layers.","all dense networks with any pattern of repeated layer objects, all inputs, files and learning rates","every pattern of sharing is quantified over; the repository's tests use each layer once.",["src/neuralnet.h: NeuralNet(input, output, layers)", "src/neuralnet.cpp: forwardprop, backprop, update, save, load", "src/layer/layer.cpp: forwardprop, backprop, update"])
p("C99","With regularisation the weights stay bounded for ever","If every layer is regularised (lambda > 0, rate * lambda <= 1), the hidden activations are bounded with bounded derivatives (sigmoid, arctan, tanhyperbolic, bipolarsigmoid, comploglog, lecuntanh, hardtanh) and the output is sigmoid with cross-entropy or quadratic cost, or softmax, then there is one bound, fixed before training starts, that no weight ever exceeds, whatever the number, size and content of the batches, as long as their inputs stay within a fixed bound and their labels between 0 and 1. Without regularisation no such bound exists, whatever the learning rate.","all dense networks of any depth and width with those settings, all finite training histories on batches of any size with bounded inputs and labels in [0,1], all learning rates","the bound must hold after any number of steps on any data; a test runs a few steps on one data set.",["src/layer/layer.cpp: backprop, update", "src/layer/outputlayer.cpp: backprop", "src/output/crossentropyoutput.cpp, src/output/quadraticoutput.cpp, src/output/softmaxoutput.cpp", "src/act.cpp"])
p("C100","A learning-rate schedule with a finite sum brings training to rest","Before each training step the user sets the rate with setlrate; the rates have a finite sum (1, 1/2, 1/4, ...; any exponential decay). Then training never fails and every single weight of every layer converges to a limit, whatever the batches, as long as inputs are bounded and labels lie between 0 and 1, the hidden activations are bounded with bounded derivatives, and the output is sigmoid with cross-entropy or quadratic cost, or softmax; with or without regularisation. The decay option of the trainers is not such a schedule: it lowers the rate once, and feeding one sample for ever carries a weight beyond every bound for every choice of its parameters.","all dense networks of any depth with those settings, all summable sequences of rates, all infinite sequences of batches; all decay parameters r0 > 0, k, step","a limit of infinitely many steps on arbitrary data; a test observes finitely many steps.",["src/neuralnet.cpp: setlrate, forwardprop, backprop, update", "src/layer/layer.cpp: backprop, update", "src/trainer/trainer.cpp: feeddata"])
p("C101","Convolution and pooling move with the picture and are linear","For one sample: moving the picture by (a, b) on a black background moves every feature map of a Conv2DLayer with stride 1, whatever its weights, activation, padding and channels, and every map of a MaxPoolLayer or MeanPoolLayer, by (a, b), wherever both positions exist. With the identity activation the maps of alpha x + beta y are alpha times the maps of x plus beta times the maps of y for convolution (stride 1) and mean pooling.","all layer geometries (image size, channels, window, padding), weights, activations, pictures, displacements and scalars; single-sample batches","all pictures, displacements and geometries are quantified over; a test moves one picture.",["src/layer/conv2dlayer.cpp: forwardprop, convolve", "src/layer/maxpoollayer.cpp: forwardprop", "src/layer/meanpoollayer.cpp: forwardprop"])
p("C102","Hidden layers without activation add nothing","A dense network whose hidden activations are all the identity gives, on every input, the same outputs and the same predictions as some network without hidden layers with the same output activation. In particular no such network with two outputs and a strictly increasing output activation predicts the four classes of the xor problem, whatever its depth, widths and weights, while a 2-2-2 network with rectifier hidden units does.","all well-formed dense networks with identity hidden activations (any depth, widths, weights), all inputs","all depths, weights and inputs are quantified over, and the xor part says that no weights exist.",["src/neuralnet.cpp: forwardprop, predict", "src/layer/layer.cpp: forwardprop", "src/layer/outputlayer.cpp: argmax", "example/xor_problem.cpp: main"])
p("C103","Rescaling a unit, and the balance of its weights in training","Let a hidden layer of a dense network have the identity, the rectifier or the absolute value as activation. Multiplying the bias and weights into each unit by a positive factor and dividing the weights out of it by the same factor changes no output and no prediction on any input. In a training step, for any cost, the inner product of the weights into a unit with their change equals that of the weights out of it (with equal learning rates and no regularisation; general formula otherwise), so the difference of the squared lengths changes only by terms of second order. Training itself is not invariant: rescaled networks that agree on every input may disagree after one step on the same sample.","all well-formed dense networks, all layers l and units j, positive factors, inputs, labels, costs with a derivative of the right size, learning rates and regularisations","all networks, factors and batches are quantified over; the balance is an identity between sums over all weights of a unit.",["src/neuralnet.cpp: forwardprop, backprop, update, predict", "src/layer/layer.cpp: forwardprop, backprop, update", "src/act.cpp: identity, relu, absolute"])
p("C104","Loading, shuffling, splitting and scoring data in the test programs","For every sequence of random numbers, shuffledata permutes the samples, features and labels alike. load splits them into a training set of the first four fifths (rounded down) and a test set of the rest, so that each sample that was read is at exactly one place in one of them, next to the one-hot coding of its label; with fewer than two samples, or a label that is not a class, it throws. accuracy is the share of rows whose predicted class is the labelled one, and evaluate returns, without changing the network, the share of samples whose label is the first of the largest outputs. Shuffling before a full-batch training step does not change the weights. The trainer named in the input is used: false, every name gives the plain trainer and the parameters of the named one are left unread.","all random sequences, data sets and labels of any size, networks, names of trainers and parameters","a test sees one shuffle of one data set; the claims range over every sequence of random numbers and every data set.",["test/model_test.cpp: shuffledata, load, accuracy, evaluate, setuptrainer", "test/test5.cpp: shuffledata, accuracy", "src/trainer/trainer.cpp: operator=", "src/neuralnet.cpp: predict"])
p("C105","Convolution and pooling layers in 32-bit int arithmetic","The sizes and offsets of convolution and pooling layers are computed in 32-bit signed int. When every product of sizes the layer uses fits in int, construction, forwardprop, backprop (of a convolution with stride 1 and an odd window padded to keep the size) and pooling give exactly the results of unbounded integers; when one does not fit, the constructor or the pass that computes it has undefined behaviour. A layer that the constructor accepts can be run: false, a 30000 x 30000 image with 3 filters is accepted, and every forward pass overflows.","all image sizes, channels, filters, strides, paddings and windows as C ints, all inputs and weights","overflow needs images of two thousand million entries, which no test allocates; the claim ranges over all sizes.",["src/layer/conv2dlayer.cpp: Conv2DLayer, forwardprop, backprop, toimage, convolve", "src/layer/maxpoollayer.cpp: MaxPoolLayer, forwardprop", "src/layer/meanpoollayer.cpp: MeanPoolLayer, forwardprop", "src/layer/layer.cpp: Layer"])
p("C106","Null pointers among the hidden layers","The constructor of NeuralNet accepts null layer pointers, and networks with them can be copied and assigned. From then on no forward pass, prediction, backward pass, update or training step returns: unless a layer before the null one throws, the pointer is dereferenced. setlrate, save to a file that can be opened and load from a file that exists always dereference it. randomize(index), gethidden and sethiddenw do so exactly when the pointer at that index is null. Networks without null pointers behave as in the rest of the model.","all vectors of null and non-null pointers, networks, inputs, labels, files, rates and indices","every position of the null pointers and every state of the other layers is quantified over; a test cannot observe undefined behaviour.",["src/neuralnet.cpp: NeuralNet, forwardprop, backprop, update, predict, setlrate, randomize, save, load", "src/neuralnet.h: gethidden, sethiddenw"])
p("C107","Networks used by several threads","Threads that call forwardprop, predict, backprop, update, computecost, getresult, setlrate and setoutputw, each on a network of its own, do not affect each other in any interleaving of their statements, as long as no two of the networks share a hidden layer: each thread's calls return or throw what they would if it ran alone, its network and layers end up the same, and nothing else changes. This includes copies of a network without hidden layers. Copies of a network with hidden layers should be as safe: one per thread.","all numbers of threads, networks, layers, sequences of calls and orders of the statements","all interleavings; the number of schedules is unbounded, and a race shows in a test only by chance.",["src/neuralnet.cpp: NeuralNet(const NeuralNet&), forwardprop, backprop, update, predict, setlrate", "src/layer/layer.cpp: forwardprop, backprop, update", "src/layer/outputlayer.cpp: backprop", "src/layer/inputlayer.cpp: forwardprop"])
p("C108","Exceptions in builds with OpenMP","Built with OpenMP, convolution and pooling layers behave like the same layers built without, except that an error inside a parallel loop ends the program where it is otherwise thrown as an exception. After construction, inputs of every size and number of rows are handled without that: wide enough ones give the same result and too narrow ones throw. The same holds for training a same-size convolution with a delta that has at most as many rows as the last input. Wrong sizes should never end the program.","all layers, inputs, deltas, weights, sizes","all sizes; whether an exception starts inside or outside a parallel loop depends on which of several size checks fails first, for every combination of sizes.",["src/layer/conv2dlayer.cpp: forwardprop, backprop", "src/layer/maxpoollayer.cpp: forwardprop", "src/layer/meanpoollayer.cpp: forwardprop", "cmake/find_headers.cmake: HAVE_OPENMP"])
p("C109","A common offset of the weights of all classes means nothing to a softmax network","Adding the same vector to the output weights of all classes of a softmax network changes neither the predicted classes nor the cost, now or after any training with labels that add up to one for each sample: both networks keep equal hidden weights, and the offset only shrinks by the regularisation. Training keeps the sum over the classes of the weights from each hidden unit, and of the biases, up to the factor 1 - rate * lambda for each batch; with labels that do not add up to one the biases drift by exactly the excess.","all dense networks with softmax output, offsets, sequences of batches, inputs and labels","all networks, all offsets and training histories of any length.",["src/output/softmaxoutput.cpp: costfunc, costfuncdelta", "src/layer/outputlayer.cpp: backprop, argmax", "src/layer/layer.cpp: update", "src/neuralnet.cpp: forwardprop, backprop, update, predict, computecost"])
p("C110","Tensor operations when memory runs out","When a request for memory fails anywhere inside a tensor constructor, a factory (Ones, Eyes, Gaussian), an elementwise, broadcasting, comparing or reducing operation or a matrix product, std::bad_alloc leaves the call, every existing tensor is as before and nothing that was allocated stays allocated. Reshape to no more dimensions leaves the tensor as it was. Copy assignment between tensors of equal size keeps the target usable (with its old shape and the new elements).","all tensors and heaps, all sequences of successes and failures of the requests, all OpenMP schedules","a test cannot make every request fail at every point of every operation.",["src/tensor/tensor.cpp: constructors, operator=, Ones, Eyes, Gaussian, Reshape", "src/tensor/tensor_shape.cpp: TensorShape, operator=", "src/tensor/ops/*.cpp", "src/tensor/ops/matmul.cpp: operator%, matmul"])
p("C111","What the training data cannot tell apart is never learned","If no training sample has a component along a direction of the input (counting the bias as a constant input), then training never changes the first layer's weights along that direction, except for the factor 1 - rate * lambda that regularisation applies for each batch, whatever the labels. Two networks that differ in the first layer only by such directions stay equal everywhere else through any training and compute equal outputs for every sample of that kind. So the weights from a feature that is always zero keep their random initial values, two features that are always equal keep the difference of their weights, and a constant feature is tied to the bias.","all dense networks, activation functions and library costs, all sequences of batches of any sizes, all directions orthogonal to the samples, all inputs","all networks, all data sets of a kind and training histories of any length.",["src/layer/layer.cpp: forwardprop, backprop, update", "src/layer/outputlayer.cpp: backprop", "src/neuralnet.cpp: forwardprop, backprop, update"])
p("C112","Rotating the features or mirroring units changes nothing","Rotate or reflect the features of all training data by an orthogonal matrix and the initial weights of the first layer with them: training gives the same network up to that rotation, and it computes the same outputs for rotated inputs. Negate the weights into and out of any hidden units whose activation function is odd (identity, arctan, tanhyperbolic, bipolarsigmoid, lecuntanh and hardtanh, and no other of the library): the network computes the same outputs, and keeps doing so through any training. With an identity output and the quadratic cost the labels may be rotated too.","all dense networks, orthogonal matrices, choices of units, library costs, and all sequences of batches and inputs","all networks, all rotations and training histories of any length.",["src/layer/layer.cpp: forwardprop, backprop, update", "src/layer/outputlayer.cpp: backprop", "src/output/quadraticoutput.cpp: costfuncdelta", "src/act.cpp", "src/neuralnet.cpp: forwardprop, backprop, update"])
p("C113","Preparing a data file for the experiment program","For every data file that can be read, run_experiment.py sends each sample with its features (values, or for a column of names the order in which the names first appear) and with a label below the number of classes, such that two samples have the same label exactly if they have the same class, and the program that receives them builds a training and a test set with one row per sample and a single one in the column of its class.","all data files, numbers of rows and columns, class names and numbers, and random sequences of the shuffle","all files of any size and any numbering of the classes.",["run_experiment.py: process, geto, max_label, replace, isnum", "test/model_test.cpp: load"])
p("C114","Watching the training does not disturb it","The training loop of the experiment program prints the cost and the accuracy whenever the clock says so. Whatever the clock does, the weights, the settings and the trainer after the loop are those of the same number of plain training calls; each printed cost is that of the network before its iteration and each printed accuracy is the share of samples the network after it classifies correctly; and every trial follows the same learning-rate schedule.","all networks, samples, trainers, numbers of iterations, trials and clocks","all clocks and histories: no test run can make the clock behave in every way.",["test/model_test.cpp: train, accuracy, main", "src/trainer/trainer.cpp: feeddata"])
p("C115","Repeated trials of an experiment","The experiment program keeps a copy of the network, trains and scores the network, sets it back to the copy, draws weights anew and goes on with the next trial. For every network and data set, all clocks and all results of rand(), all trials are carried out and reported with accuracies between 0 and 1, and every trial starts from a network whose weights owe nothing to the training before.","all networks, data sets, numbers of trials and iterations, clocks and random sequences","all random sequences and histories: a test sees single results of rand().",["test/model_test.cpp: main, train, evaluate", "src/neuralnet.cpp: operator=, randomize", "src/layer/layer.cpp: randominit"])
p("C116","Tensors used by several threads","Threads that each work on tensors of their own and only read the tensors they have in common never fail and never disturb each other: under every interleaving of their calls, and every schedule of the OpenMP loops inside the calls, each thread reads exactly the numbers it reads when it runs alone, and all tensors end with the values they would have then.","all numbers of threads, all programs over the tensor API (with control flow that depends on the numbers read), all interleavings and schedules","all interleavings: a test sees a few.",["src/tensor/tensor.cpp", "src/tensor/tensor.h", "src/tensor/ops"])
p("C117","Small changes of the input","Outputs cannot jump: if the features of a sample change by at most eps, the outputs of a dense network change by at most eps times the product of the gains of its layers, where the gain of a layer is the slope of its activation times the largest sum of absolute weights of a unit; and a sample whose best output leads by more than twice that keeps its predicted class.","all dense networks, weights, batches, samples and changes of the features","all inputs and all perturbations of them: a test sees single points.",["src/neuralnet.cpp: forwardprop, predict", "src/layer/layer.cpp: forwardprop", "src/act.cpp"])
p("C118","The direction of influence","If features and units can be given directions (up or down) such that every weight has the sign its two ends ask for, and the activations are non-decreasing, then moving features in their directions never moves an output against its direction. In particular with weights that are not negative, raising features never lowers an output.","all dense networks with such signs, all biases, samples and movements of the features","all pairs of inputs: a test sees single pairs.",["src/neuralnet.cpp: forwardprop", "src/layer/layer.cpp: forwardprop", "src/act.cpp"])
p("C119","Changing the units of the features","Measuring the features in other units (feature k becomes a_k*v+b_k, a_k not 0) costs nothing: for every dense network there is one with the same layers except for the weights of the first, whose outputs for the features in the new units are those of the old network for the features in the old ones.","all dense networks, weights, batches and affine changes of units with non-zero factors","all weights and all inputs: a test sees single points.",["src/neuralnet.cpp: forwardprop, predict", "src/layer/layer.cpp: forwardprop"])
p("C120","Hidden units that can be removed","Hidden units with equal incoming weights can be merged (their outgoing weights are added), and units without outgoing or without incoming weights can be dropped (the constant output of the latter goes into the biases of the next layer), without changing any output or prediction; the same units can be added. A unit whose bias, incoming and outgoing weights are all 0 and whose activation is 0 at 0 keeps these weights in all training, whatever the cost, data and rates.","all dense networks, hidden layers, weights, inputs; all training histories","all weights, inputs and histories: a test sees single points.",["src/neuralnet.cpp: forwardprop, predict, backprop, update", "src/layer/layer.cpp: forwardprop, backprop", "src/act.cpp"])
p("C121","A picture in the convolution test program","The test program of the convolution layer lays a colour picture out as a sample such that the layer sees the picture, its output is the convolution of the picture with the kernels, and all its passes end normally.","all pictures, picture sizes, filter counts, windows, paddings, random weights and contents of uninitialised memory","all pictures and geometries: the program is run by hand on single pictures.",["test/convlayer_test.cpp: resizeimg, main", "src/layer/conv2dlayer.cpp: Conv2DLayer, forwardprop, backprop, toimage"])
p("C122","Networks with normalising layers","A network of dense and normalising layers answers a batch like the network of dense layers in which each normalising layer divides by a constant: the number it holds, or the range of the values of the whole batch that reach it if it was last set back. All later batches are answered with the same constants, up to the next backprop, which computes for all dense layers the gradient of the cost with these constants held fixed and sets the normalising layers back. If the first layer normalises and was set back, a common positive factor of all inputs does not matter.","all networks of dense and normalising layers in any number and order, weights, activations, batches (with a non-zero range at every normalising layer that was set back), sequences of batches, initial values held by the normalising layers","all stacks, weights, batches and sequences of calls; a test can only try some.",["src/layer/normlayer.cpp: forwardprop, backprop", "src/neuralnet.cpp: forwardprop, backprop, predict"])
p("C123","Training below a softmax layer","Training (forwardprop; backprop; update) a network in which a dense layer without regularisation feeds a SoftmaxLayer moves every bias of that dense layer down at every step, if the derivative of its activation is positive, whatever the data, labels and current error are. Without an activation, and if that layer is the first, the sum of its biases goes down by the learning rate times the number of samples at each step, so that repeated training never settles and drives a bias below every bound, even if the network answers every sample perfectly; in that case, without regularisation, no answer of the network changes meanwhile, on any input. With regularisation lambda the sum of the biases tends to minus the number of samples per step over lambda, and no bias falls below that number or its initial minimum.","all networks with a dense layer feeding a softmax layer, anything before and behind it; all weights, learning rates, activations with positive derivative, samples, labels, cost functions; all numbers of training steps","all data, labels, networks and numbers of steps; a test runs a few steps of one network.",["src/layer/softmaxlayer.cpp: SoftmaxLayer::backprop", "src/neuralnet.cpp: forwardprop, backprop, update", "src/layer/layer.cpp: backprop, update"])
p("C124","The back part of a network is trained like a network of its own","Cut the hidden layers of a network anywhere, so that no layer object is on both sides. The network answers x with what the back part, as a network of its own, answers to the features the front makes of x. Backpropagation leaves the same gradients in the back part as in that network, and they are the derivatives of the cost of the whole network whenever they are those of the back part's, whatever kinds of layers the front has. Any sequence of training steps changes the back part exactly as training it on the features that the front computes before each step; and if the front consists of softmax layers and of dense layers with learning rate zero, these are the features it computes at the beginning, so they can be computed once.","all networks, layers of any kinds, cuts, data, labels and numbers of training steps that do not throw","all architectures and histories; a test can only try some.",["src/neuralnet.cpp: forwardprop, backprop, update"])
p("C125","Wrong sizes in networks of dense, normalising and softmax layers always throw","Whatever the order and sizes of the dense, normalising and softmax layers of a network (no layer object used twice): forwardprop(x) succeeds exactly if x has a sample and the dense layers, the output layer last, chain behind the width of x, and throws an exception otherwise; the other layers do not count. With one of the library's outputs, a training step succeeds exactly if moreover the labels have a row for each sample and a column for each output, and throws otherwise; every layer then keeps its class and the size of its weights. So any sequence of training steps succeeds exactly if each batch fits the network as it was built. predict succeeds exactly if forwardprop does and the output layer has a column. The behaviour is never undefined.","all sequences of dense, normalising and softmax layers of all sizes, all data, labels and numbers of steps","all architectures, sizes and histories; a test can only try some.",["src/neuralnet.cpp: forwardprop, backprop, update", "src/layer/normlayer.cpp", "src/layer/softmaxlayer.cpp", "src/layer/layer.cpp"])
p("C126","A batch that a network rejects still marks its normalising layer","If the first hidden layer of a network is a normalising one and holds 0, then after forwardprop(x), for every x with at least one value and whatever the layers behind it do, it holds the range of x, even if the call ends with an exception because the width of x does not fit. Classes, weights and activations of the dense layers and of the output layer are those before the call. So a caller who catches the exception and goes on gets other predictions, until a completed backward pass resets the layer to 0: there is a network and a sample that it puts into class 1, and into class 0 after it has rejected a sample of the wrong width.","all networks that begin with a normalising layer, layers of any kinds behind it, all samples of any width","all networks and inputs; a test can only try some.",["src/layer/normlayer.cpp: forwardprop", "src/neuralnet.cpp: forwardprop, predict"])
with open('/verif/properties.jsonl','w') as f:
    for x in P: f.write(json.dumps(x)+"\n")
print(len(P))
